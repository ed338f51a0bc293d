/- Properties C84 (network API on hand-written `EmlNet` structures), and the values written by `regress` and `predict_proba` (C36, C38). -/
import Verif.Props.Net
namespace Emlearn.Net
variable {F : Type} (ops : NetOps F)

/-! ### C84: memory safety and error codes for any `EmlNet` -/

/-- The arrays of a network have at least the sizes its fields declare. Nothing is assumed about the layers fitting together. -/
structure ArraysFit (n : Net F) (s : Bufs F) : Prop where
  weights : ∀ l ∈ n.layers, l.nInputs * l.nOutputs ≤ l.weights.length ∧ l.nOutputs ≤ l.biases.length
  b1 : n.actLen ≤ s.b1.length
  b2 : n.actLen ≤ s.b2.length

/-- The documented checks, in order: at least two layers, input length, activation buffers large enough for every layer, supported activation functions. -/
def expectedCode (n : Net F) (len : Nat) (code : EmlError) : Prop :=
  (n.layers.length < 2 ∧ code = .unsupported) ∨
  (2 ≤ n.layers.length ∧ ((∃ l, n.layers.head? = some l ∧ len ≠ l.nInputs) ∨ ∃ l ∈ n.layers, n.actLen < l.nInputs ∨ n.actLen < l.nOutputs) ∧ code = .sizeMismatch) ∨
  (2 ≤ n.layers.length ∧ (∃ l, n.layers.head? = some l ∧ len = l.nInputs) ∧ (∀ l ∈ n.layers, l.nInputs ≤ n.actLen ∧ l.nOutputs ≤ n.actLen) ∧
    ((∃ l ∈ n.layers, l.activation = .other) ∧ code = .unsupported ∨ (∀ l ∈ n.layers, l.activation ≠ .other) ∧ code = .ok))

theorem dotLoop_safe (inp weights : List F) (inLen outLength o : Nat) (ho : o < outLength) (hw : inLen * outLength ≤ weights.length) (hi : inLen ≤ inp.length) :
    ∀ (k i : Nat) (sum : F), i + k = inLen → ∃ v, dotLoop ops inp weights outLength o k i sum = some v
  | 0, i, sum, _ => ⟨sum, rfl⟩
  | k + 1, i, sum, h => by
    have h1 : o + i * outLength < weights.length := by
      have : (i + 1) * outLength ≤ inLen * outLength := Nat.mul_le_mul_right _ (by omega)
      rw [Nat.succ_mul] at this
      omega
    unfold dotLoop
    rw [List.getElem?_eq_getElem h1, List.getElem?_eq_getElem (show i < inp.length by omega)]
    simp only [bind, Option.bind_some]
    exact dotLoop_safe inp weights inLen outLength o ho hw hi k (i + 1) _ (by omega)

theorem linearLoop_safe (inp : List F) (inLen : Nat) (weights biases : List F) (outLength : Nat) (hw : inLen * outLength ≤ weights.length)
    (hb : outLength ≤ biases.length) (hi : inLen ≤ inp.length) :
    ∀ (k o : Nat) (out : List F), o + k = outLength → outLength ≤ out.length →
      ∃ out', linearLoop ops inp inLen weights biases outLength k o out = some out' ∧ out'.length = out.length
  | 0, o, out, _, _ => ⟨out, rfl, rfl⟩
  | k + 1, o, out, h, hl => by
    obtain ⟨v, hv⟩ := dotLoop_safe ops inp weights inLen outLength o (by omega) hw hi inLen 0 ops.zero (by omega)
    unfold linearLoop
    rw [hv, List.getElem?_eq_getElem (show o < biases.length by omega)]
    simp only [bind, Option.bind_some]
    rw [if_pos (by omega)]
    obtain ⟨out', h1, h2⟩ := linearLoop_safe inp inLen weights biases outLength hw hb hi k (o + 1) (out.set o (ops.add v biases[o])) (by omega) (by simpa using hl)
    exact ⟨out', h1, by simpa using h2⟩

theorem activate_length (a : Act) (xs : List F) : (a = .other ∧ activate ops a xs = none) ∨ (a ≠ .other ∧ ∃ ys, activate ops a xs = some ys ∧ ys.length = xs.length) := by
  cases a <;> simp [activate, softmax]

theorem forward_safe (inp : List F) (inLen : Nat) (weights biases : List F) (act : Act) (out : List F) (outLength : Nat) (hw : inLen * outLength ≤ weights.length)
    (hb : outLength ≤ biases.length) (hi : inLen ≤ inp.length) (ho : outLength ≤ out.length) :
    ∃ (e : EmlError) (out' : List F), forward ops inp inLen weights biases act out outLength = some (e, out') ∧ out'.length = out.length ∧
      (act ≠ .other ∧ e = .ok ∨ act = .other ∧ e = .unsupported) := by
  obtain ⟨o1, h1, h2⟩ := linearLoop_safe ops inp inLen weights biases outLength hw hb hi outLength 0 out (by omega) ho
  unfold forward
  simp only [h1, bind, Option.bind_some]
  rw [if_pos (by omega)]
  rcases activate_length ops act (o1.take outLength) with ⟨ha, h⟩ | ⟨ha, ys, h, hl⟩
  · rw [h]; exact ⟨_, _, rfl, h2, Or.inr ⟨ha, rfl⟩⟩
  · rw [h]
    refine ⟨_, _, rfl, ?_, Or.inl ⟨ha, rfl⟩⟩
    simp only [List.length_append, List.length_drop, hl, List.length_take]
    omega

theorem layerForward_safe (l : Layer F) (hl : l.nInputs * l.nOutputs ≤ l.weights.length ∧ l.nOutputs ≤ l.biases.length) (inp : List F) (il : Nat) (out : List F) (ol : Nat)
    (hi : il ≤ inp.length) (ho : ol ≤ out.length) (h1 : l.nInputs ≤ il) (h2 : l.nOutputs ≤ ol) :
    ∃ (e : EmlError) (out' : List F), layerForward ops l inp il out ol = some (e, out') ∧ out'.length = out.length ∧
      (l.activation ≠ .other ∧ e = .ok ∨ l.activation = .other ∧ e = .unsupported) := by
  unfold layerForward
  rw [if_pos h1, if_pos h2]
  exact forward_safe ops inp l.nInputs l.weights l.biases l.activation out l.nOutputs hl.1 hl.2 (by omega) (by omega)

theorem restLayers_safe (N : Nat) : ∀ (ls : List (Layer F)) (s : Bufs F),
    (∀ l ∈ ls, (l.nInputs * l.nOutputs ≤ l.weights.length ∧ l.nOutputs ≤ l.biases.length) ∧ l.nInputs ≤ N ∧ l.nOutputs ≤ N) → N ≤ s.b1.length → N ≤ s.b2.length →
    ∃ (e : EmlError) (s' : Bufs F), restLayers ops N ls s = some (e, s') ∧ s'.b1.length = s.b1.length ∧ s'.b2.length = s.b2.length ∧
      ((∃ l ∈ ls, l.activation = .other) ∧ e = .unsupported ∨ (∀ l ∈ ls, l.activation ≠ .other) ∧ e = .ok)
  | [], s, _, _, _ => ⟨_, s, rfl, rfl, rfl, Or.inr ⟨by simp, rfl⟩⟩
  | [l], s, h, h1, h2 => by
    obtain ⟨hw, hn, ho⟩ := h l (by simp)
    obtain ⟨e, o, h3, h4, h5⟩ := layerForward_safe ops l hw s.b1 N s.b2 N h1 h2 hn ho
    refine ⟨e, { s with b2 := o }, by simp [restLayers, h3], rfl, h4, ?_⟩
    rcases h5 with ⟨a, b⟩ | ⟨a, b⟩
    · exact Or.inr ⟨by simpa using a, b⟩
    · exact Or.inl ⟨by simpa using a, b⟩
  | l :: l2 :: ls, s, h, h1, h2 => by
    obtain ⟨hw, hn, ho⟩ := h l (by simp)
    obtain ⟨e, o, h3, h4, h5⟩ := layerForward_safe ops l hw s.b1 N s.b2 N h1 h2 hn ho
    have heq : restLayers ops N (l :: l2 :: ls) s = (layerForward ops l s.b1 N s.b2 N).bind (fun r =>
        if r.1 = .ok then (copyBuf N s.b1 r.2).bind (fun b1 => restLayers ops N (l2 :: ls) { b1 := b1, b2 := r.2 }) else some (r.1, { s with b2 := r.2 })) := by
      rw [restLayers]; rfl
      simp
    rw [heq, h3]
    simp only [Option.bind_some]
    rcases h5 with ⟨a, b⟩ | ⟨a, b⟩
    · rw [if_pos b, copyBuf, if_pos ⟨h1, by omega⟩]
      simp only [Option.bind_some]
      obtain ⟨e', s', i1, i2, i3, i4⟩ := restLayers_safe N (l2 :: ls) { b1 := o.take N ++ s.b1.drop N, b2 := o } (fun x hx => h x (by simp at hx ⊢; tauto))
        (by simp; omega) (by simp only; omega)
      refine ⟨e', s', i1, ?_, by rw [i3]; exact h4, ?_⟩
      · rw [i2]; simp; omega
      · rcases i4 with ⟨⟨x, hx, hx2⟩, he⟩ | ⟨hx, he⟩
        · exact Or.inl ⟨⟨x, by simp at hx ⊢; tauto, hx2⟩, he⟩
        · refine Or.inr ⟨?_, he⟩
          intro x hxm
          rcases List.mem_cons.1 hxm with rfl | hxm
          · exact a
          · exact hx x hxm
    · rw [if_neg (by rw [b]; decide)]
      exact ⟨e, _, rfl, rfl, h4, Or.inl ⟨⟨l, by simp, a⟩, b⟩⟩

theorem largest_le_iff (n : Net F) : largest n ≤ (n.actLen : Int) ↔ ∀ l ∈ n.layers, l.nInputs ≤ n.actLen ∧ l.nOutputs ≤ n.actLen := by
  have key : ∀ (ls : List (Layer F)) (m N : Int), ls.foldl (fun m l =>
      let m := if (l.nInputs : Int) > m then (l.nInputs : Int) else m
      if (l.nOutputs : Int) > m then (l.nOutputs : Int) else m) m ≤ N ↔ m ≤ N ∧ ∀ l ∈ ls, (l.nInputs : Int) ≤ N ∧ (l.nOutputs : Int) ≤ N := by
    intro ls
    induction ls with
    | nil => simp
    | cons l ls ih =>
      intro m N
      rw [List.foldl_cons, ih]
      simp only [List.mem_cons, forall_eq_or_imp]
      constructor
      · rintro ⟨h1, h2⟩
        refine ⟨?_, ⟨?_, ?_⟩, h2⟩ <;> (split at h1 <;> split at h1 <;> omega)
      · rintro ⟨h1, ⟨h2, h3⟩, h4⟩
        refine ⟨?_, h4⟩
        split <;> split <;> omega
  unfold largest
  rw [key]
  constructor
  · rintro ⟨_, h⟩ l hl; have := h l hl; omega
  · intro h; exact ⟨by omega, fun l hl => by have := h l hl; omega⟩

/-- **C84** For every `EmlNet`, hand-written or generated, whose arrays have the declared sizes, every input and any arithmetic: inference stays inside the arrays (a result, never a fault), leaves the
array sizes alone, and returns exactly the documented code of the first check that fails. -/
theorem C84_infer_safe (n : Net F) (s : Bufs F) (h : ArraysFit n s) (x : List F) :
    ∃ (e : EmlError) (s' : Bufs F), infer ops n s x = some (e, s') ∧ s'.b1.length = s.b1.length ∧ s'.b2.length = s.b2.length ∧ expectedCode n x.length e := by
  obtain ⟨hw, h1, h2⟩ := h
  unfold infer
  match hls : n.layers with
  | [] => exact ⟨_, s, rfl, rfl, rfl, Or.inl (by simp [hls])⟩
  | [l] => exact ⟨_, s, rfl, rfl, rfl, Or.inl (by simp [hls])⟩
  | l0 :: l1 :: ls =>
    simp only
    have hhead : n.layers.head? = some l0 := by rw [hls]; rfl
    have h2l : 2 ≤ n.layers.length := by rw [hls]; simp
    by_cases hx : x.length = l0.nInputs
    · rw [if_pos hx]
      by_cases hl : largest n ≤ (n.actLen : Int)
      · rw [if_pos hl]
        have hsz := (largest_le_iff n).1 hl
        have hm : ∀ l ∈ l0 :: l1 :: ls, (l.nInputs * l.nOutputs ≤ l.weights.length ∧ l.nOutputs ≤ l.biases.length) ∧ l.nInputs ≤ n.actLen ∧ l.nOutputs ≤ n.actLen := by
          intro l hl; rw [← hls] at hl; exact ⟨hw l hl, hsz l hl⟩
        obtain ⟨e, o, h3, h4, h5⟩ := layerForward_safe ops l0 (hm l0 (by simp)).1 x x.length s.b1 n.actLen (le_refl _) h1 (by omega) (hm l0 (by simp)).2.2
        rw [h3]
        simp only [bind, Option.bind_some]
        rcases h5 with ⟨a, b⟩ | ⟨a, b⟩
        · rw [if_pos b]
          obtain ⟨e', s', i1, i2, i3, i4⟩ := restLayers_safe ops n.actLen (l1 :: ls) { s with b1 := o } (fun l hl => hm l (List.mem_cons_of_mem _ hl)) (by simp only; omega) h2
          refine ⟨e', s', i1, by rw [i2]; exact h4, i3, Or.inr (Or.inr ⟨h2l, ⟨l0, hhead, hx⟩, hsz, ?_⟩)⟩
          rcases i4 with ⟨⟨y, hy, hy2⟩, he⟩ | ⟨hy, he⟩
          · exact Or.inl ⟨⟨y, by rw [hls]; exact List.mem_cons_of_mem _ hy, hy2⟩, he⟩
          · refine Or.inr ⟨?_, he⟩
            intro y hym
            rw [hls] at hym
            rcases List.mem_cons.1 hym with rfl | hym
            · exact a
            · exact hy y hym
        · rw [if_neg (by rw [b]; decide)]
          exact ⟨e, _, rfl, h4, rfl, Or.inr (Or.inr ⟨h2l, ⟨l0, hhead, hx⟩, hsz, Or.inl ⟨⟨l0, by rw [hls]; simp, a⟩, b⟩⟩)⟩
      · rw [if_neg hl]
        refine ⟨_, s, rfl, rfl, rfl, Or.inr (Or.inl ⟨h2l, Or.inr ?_, rfl⟩)⟩
        by_contra hc
        push Not at hc
        exact hl ((largest_le_iff n).2 hc)
    · rw [if_neg hx]
      exact ⟨_, s, rfl, rfl, rfl, Or.inr (Or.inl ⟨h2l, Or.inl ⟨l0, hhead, hx⟩, rfl⟩)⟩

/-- **C84** (predict) never faults on such a network; a failed check is returned as the negated error code and never as a class. -/
theorem C84_predict_safe (n : Net F) (s : Bufs F) (h : ArraysFit n s) (x : List F) :
    ∃ (c : Int) (s' : Bufs F), predict ops n s x = some (c, s') ∧
      ∃ e, expectedCode n x.length e ∧ (e = .sizeMismatch → c = -1) ∧ (e = .unsupported → c = -2) ∧
        (e = .ok → (∃ l, n.layers.getLast? = some l ∧ (l.nOutputs = 0 → c = -5) ∧ (l.nOutputs = 1 → c = 0 ∨ c = 1) ∧ c < (max l.nOutputs 2 : Nat) ∧ (c = -5 ∨ -1 ≤ c))) := by
  obtain ⟨e, s', h1, h2, h3, h4⟩ := C84_infer_safe ops n s h x
  unfold predict
  simp only [h1, bind, Option.bind_some]
  by_cases he : e = .ok
  · subst he
    rw [if_pos rfl]
    have hlast : ∃ l, n.layers.getLast? = some l ∧ l.nOutputs ≤ n.actLen := by
      rcases h4 with ⟨_, h4⟩ | ⟨_, _, h4⟩ | ⟨h2l, _, hsz, _⟩
      · cases h4
      · cases h4
      · have : n.layers ≠ [] := by rintro h0; rw [h0] at h2l; simp at h2l
        exact ⟨n.layers.getLast this, List.getLast?_eq_some_getLast this, (hsz _ (List.getLast_mem this)).2⟩
    obtain ⟨l, hl, hlo⟩ := hlast
    have ho : outputs n = some l.nOutputs := by simp [outputs, hl]
    rw [ho]
    simp only [Option.bind_some]
    have hb2 : l.nOutputs ≤ s'.b2.length := by have := h.b2; omega
    have harg : ∀ (vs : List F) (i : Int) (m : F) (b : Int), -1 ≤ b → b < i + vs.length → 0 ≤ i →
        -1 ≤ argmaxLoop ops vs i m b ∧ argmaxLoop ops vs i m b < i + vs.length := by
      intro vs
      induction vs with
      | nil => intro i m b h1 h2 _; simp only [argmaxLoop]; simp at h2 ⊢; omega
      | cons v vs ih =>
        intro i m b h1 h2 h3
        simp only [List.length_cons] at h2 ⊢
        unfold argmaxLoop
        split
        · have := ih (i + 1) v i (by omega) (by omega) (by omega); omega
        · have := ih (i + 1) m b h1 (by omega) (by omega); omega
    unfold decideClass
    by_cases c1 : l.nOutputs = 1
    · rw [if_pos c1, List.getElem?_eq_getElem (show 0 < s'.b2.length by omega)]
      simp only [Option.map_some, Option.bind_some]
      refine ⟨_, _, rfl, .ok, h4, by simp, by simp, fun _ => ⟨l, hl, by omega, ?_, ?_, ?_⟩⟩
      · intro _; split <;> simp
      · split <;> omega
      · split <;> omega
    · rw [if_neg c1]
      by_cases c2 : l.nOutputs > 1
      · rw [if_pos c2, if_pos hb2]
        simp only [Option.bind_some]
        have := harg (s'.b2.take l.nOutputs) 0 ops.negInf (-1) (by omega) (by simp; omega) (by omega)
        rw [List.length_take, Nat.min_eq_left hb2] at this
        refine ⟨_, _, rfl, .ok, h4, by simp, by simp, fun _ => ⟨l, hl, by omega, by omega, ?_, ?_⟩⟩
        · unfold argmax; omega
        · unfold argmax; omega
      · rw [if_neg c2]
        exact ⟨_, _, rfl, .ok, h4, by simp, by simp, fun _ => ⟨l, hl, by omega, by omega, by omega, by omega⟩⟩
  · rw [if_neg he]
    refine ⟨_, _, rfl, e, h4, ?_, ?_, fun h => absurd h he⟩
    · rintro rfl; rfl
    · rintro rfl; rfl

/-- **C84** (regress and predict_proba) on a network with at least one layer never fault; they check the output length first and report inference errors unchanged. -/
theorem C84_outputs_safe (n : Net F) (s : Bufs F) (h : ArraysFit n s) (x : List F) (outLength : Nat) (l : Layer F) (hl : n.layers.getLast? = some l) :
    (∃ (e : EmlError) (out : List F) (s' : Bufs F), regress ops n s x outLength = some ((e, out), s') ∧
      (outLength ≠ l.nOutputs → e = .sizeMismatch ∧ s' = s) ∧ (outLength = l.nOutputs → expectedCode n x.length e ∧ (e = .ok → out.length = outLength))) ∧
    (∃ (e : EmlError) (out : List F) (s' : Bufs F), predictProba ops n s x outLength = some ((e, out), s') ∧
      (outLength ≠ (if l.nOutputs = 1 then 2 else l.nOutputs) → e = .sizeMismatch ∧ s' = s) ∧
      (outLength = (if l.nOutputs = 1 then 2 else l.nOutputs) →
        (expectedCode n x.length e ∧ (e = .ok → out.length = outLength)) ∨ (expectedCode n x.length .ok ∧ e = .postconditionFailed))) := by
  have ho : outputs n = some l.nOutputs := by simp [outputs, hl]
  have hmem : l ∈ n.layers := List.mem_of_getLast? hl
  obtain ⟨e, s', h1, h2, h3, h4⟩ := C84_infer_safe ops n s h x
  have hsz : e = .ok → l.nOutputs ≤ s'.b2.length := by
    rintro rfl
    rcases h4 with ⟨_, h4⟩ | ⟨_, _, h4⟩ | ⟨_, _, hsz, _⟩
    · cases h4
    · cases h4
    · have := (hsz l hmem).2; have := h.b2; omega
  constructor
  · unfold regress
    rw [ho]
    simp only [bind, Option.bind_some]
    by_cases c : outLength = l.nOutputs
    · rw [if_pos c, h1]
      simp only [Option.bind_some]
      by_cases he : e = .ok
      · have := hsz he
        rw [if_pos he, if_pos this]
        refine ⟨_, _, _, rfl, fun h => absurd c h, fun _ => ⟨by rw [he] at h4; exact h4, fun _ => by simp; omega⟩⟩
      · rw [if_neg he]
        exact ⟨_, _, _, rfl, fun h => absurd c h, fun _ => ⟨h4, fun h => absurd h he⟩⟩
    · rw [if_neg c]
      exact ⟨_, _, _, rfl, fun _ => ⟨rfl, rfl⟩, fun h => absurd h c⟩
  · unfold predictProba outputsProba
    rw [ho]
    simp only [Option.map_some, bind, Option.bind_some]
    by_cases c : outLength = (if l.nOutputs = 1 then 2 else l.nOutputs)
    · rw [if_pos c, h1]
      simp only [Option.bind_some]
      by_cases he : e = .ok
      · have hsz := hsz he
        rw [if_pos he]
        rw [he] at h4
        by_cases c2 : (if l.nOutputs = 1 then 2 else l.nOutputs) = 2
        · rw [if_pos c2]
          have : 0 < s'.b2.length := by split at c2 <;> omega
          rw [List.getElem?_eq_getElem this]
          simp only [Option.bind_some]
          refine ⟨_, _, _, rfl, fun h => absurd c h, fun _ => ?_⟩
          split
          · exact Or.inl ⟨h4, fun _ => by rw [c, c2]; rfl⟩
          · exact Or.inr ⟨h4, rfl⟩
        · rw [if_neg c2]
          have c1 : ¬ l.nOutputs = 1 := by intro h; simp [h] at c2
          rw [if_neg c1] at c ⊢
          rw [if_pos hsz]
          refine ⟨_, _, _, rfl, fun h => absurd c h, fun _ => ?_⟩
          split
          · exact Or.inl ⟨h4, fun _ => by simp; omega⟩
          · exact Or.inr ⟨h4, rfl⟩
      · rw [if_neg he]
        exact ⟨_, _, _, rfl, fun h => absurd c h, fun _ => Or.inl ⟨h4, fun h => absurd h he⟩⟩
    · rw [if_neg c]
      exact ⟨_, _, _, rfl, fun _ => ⟨rfl, rfl⟩, fun h => absurd h c⟩

/-- An `EmlNet` without layers: `predict` reports it, but `regress` and `predict_proba` read `layers[-1]` before checking. -/
theorem C84_no_layers_refuted (s : Bufs F) (k : Nat) (x : List F) (outLength : Nat) :
    predict ops { layers := [], actLen := k } s x = some (-2, s) ∧ regress ops { layers := [], actLen := k } s x outLength = none ∧
    predictProba ops { layers := [], actLen := k } s x outLength = none := by
  refine ⟨rfl, rfl, rfl⟩

/-- Non-vacuity: a hand-written network whose second layer expects more inputs than the first produces; still no fault. -/
example : ArraysFit ({ layers := [⟨1, 1, [2], [0], .identity⟩, ⟨1, 2, [1, 1], [0], .relu⟩], actLen := 2 } : Net ℚ) { b1 := [0, 5], b2 := [0, 0] } ∧
    (predict ratOps { layers := [⟨1, 1, [2], [0], .identity⟩, ⟨1, 2, [1, 1], [0], .relu⟩], actLen := 2 } { b1 := [0, 5], b2 := [0, 0] } [3]).map (·.1) = some 1 := by
  refine ⟨⟨by simp, by decide, by decide⟩, by decide +kernel⟩

/-! ### Values written by `regress` and `predict_proba` -/

/-- **C36** (regress) for every generated network of at least two layers that fit together, `regress` with an output array of the right length writes the output of the network. -/
theorem C36_regress_values (ds : List (Dense F)) (h2 : 2 ≤ ds.length) (x : List F) (hc : Spec.Chained x.length ds) (s : Bufs F) (hs : BufsOk ds s) :
    ∃ s', regress ops (genLoadable ds) s x (Spec.nOut ds) = some ((.ok, Spec.network ops ds x), s') := by
  obtain ⟨s', h1, hb, ht⟩ := C36_infer_is_composition ops ds h2 x hc s hs
  have hne : ds ≠ [] := by rintro rfl; simp at h2
  have ho : outputs (genLoadable ds) = some (Spec.nOut ds) := by
    simp only [outputs, genLoadable, Spec.nOut, List.getLast?_map]
    rw [List.getLast?_eq_some_getLast hne]
    rfl
  have hle := nOut_le ds hne
  refine ⟨s', ?_⟩
  unfold regress
  rw [ho]
  simp only [bind, Option.bind_some, if_true, h1]
  rw [if_pos (by rw [hb.2]; exact hle), ht]

/-- **C38** (values) what `predict_proba` writes: with one output `v` the pair `1 - v, v`; with three or more outputs the outputs themselves; the code reports whether they sum to about 1. -/
theorem C38_proba_values (ds : List (Dense F)) (h2 : 2 ≤ ds.length) (x : List F) (hc : Spec.Chained x.length ds) (s : Bufs F) (hs : BufsOk ds s) :
    (∀ v, Spec.network ops ds x = [v] → ∃ s', predictProba ops (genLoadable ds) s x 2 =
      some ((if ops.nearOne (ops.add (ops.sub ops.one v) v) then .ok else .postconditionFailed, [ops.sub ops.one v, v]), s')) ∧
    (3 ≤ Spec.nOut ds → ∃ s', predictProba ops (genLoadable ds) s x (Spec.nOut ds) =
      some ((if ops.nearOne ((Spec.network ops ds x).foldl ops.add ops.zero) then .ok else .postconditionFailed, Spec.network ops ds x), s')) := by
  obtain ⟨s', h1, hb, ht⟩ := C36_infer_is_composition ops ds h2 x hc s hs
  have hne : ds ≠ [] := by rintro rfl; simp at h2
  have ho : outputs (genLoadable ds) = some (Spec.nOut ds) := by
    simp only [outputs, genLoadable, Spec.nOut, List.getLast?_map]
    rw [List.getLast?_eq_some_getLast hne]
    rfl
  have hle := nOut_le ds hne
  have hl := length_network ops ds hne x
  constructor
  · intro v hv
    rw [hv] at hl ht
    simp at hl
    refine ⟨s', ?_⟩
    unfold predictProba outputsProba
    rw [ho]
    simp only [Option.map_some, bind, Option.bind_some, ← hl, if_true, h1]
    have hg : s'.b2[0]? = some v := by
      rw [← hl] at ht
      have := congrArg (fun t : List F => t[0]?) ht
      simpa [List.getElem?_take] using this
    rw [hg]
    rfl
  · intro h3
    refine ⟨s', ?_⟩
    unfold predictProba outputsProba
    rw [ho]
    simp only [Option.map_some, bind, Option.bind_some]
    rw [if_neg (show ¬ Spec.nOut ds = 1 by omega), if_pos rfl, h1]
    simp only [Option.bind_some, if_true]
    rw [if_neg (by omega), if_pos (by rw [hb.2]; exact hle), ht]

end Emlearn.Net
