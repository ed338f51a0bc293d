/- C36-C42, C67, C68: neural networks (`emlearn/eml_net.h`, `emlearn/net.py`). -/
import Verif.Net.Lemmas
import Verif.Net.Spec
import Mathlib.Algebra.Order.Field.Rat
import Mathlib.Tactic.Linarith
import Mathlib.Tactic.Ring
namespace Emlearn.Net
open Spec (Chained)
variable {F : Type} (ops : NetOps F)

theorem activate_spec (a : Act) (h : a ≠ .other) (xs : List F) : activate ops a xs = some (Spec.act ops a xs) := by
  cases a <;> simp_all [activate, Spec.act, relu, expit, softmax, Spec.softmax, List.foldl_map]
  all_goals rfl

theorem affine_spec (d : Dense F) (x : List F) (o : Nat) : affine ops d.w d.b x o = Spec.neuron ops d x o := by
  simp only [affine, Spec.neuron]
  congr 1
  rw [← List.map_uncurry_zip_eq_zipWith, List.foldl_map]
  rfl

theorem length_act (a : Act) (xs : List F) : (Spec.act ops a xs).length = xs.length := by
  cases a <;> simp [Spec.act, Spec.softmax]

theorem length_layer (d : Dense F) (x : List F) : (Spec.layer ops d x).length = d.b.length := by
  simp [Spec.layer, length_act]

theorem forward_spec (d : Dense F) (h : ∀ r ∈ d.w, r.length = d.b.length) (ha : d.act ≠ .other) (inp : List F)
    (hl : d.w.length ≤ inp.length) (out : List F) (hout : d.b.length ≤ out.length) :
    forward ops inp d.nIn d.w.flatten d.b d.act out d.nOut
      = some (.ok, Spec.layer ops d (inp.take d.w.length) ++ out.drop d.b.length) := by
  have := forward_eq ops d.w d.b h inp hl d.act ha out hout
  rw [Dense.nIn, Dense.nOut, this, activate_spec ops _ ha]
  have : affine ops d.w d.b (inp.take d.w.length) = Spec.neuron ops d (inp.take d.w.length) := funext (affine_spec ops d _)
  simp [Spec.layer, this]

theorem layerForward_spec (d : Dense F) (h : ∀ r ∈ d.w, r.length = d.b.length) (ha : d.act ≠ .other) (inp : List F)
    (hl : d.w.length ≤ inp.length) (out : List F) (hout : d.b.length ≤ out.length) (il ol : Nat) (hil : d.w.length ≤ il) (hol : d.b.length ≤ ol) :
    layerForward ops (genLayer d) inp il out ol
      = some (.ok, Spec.layer ops d (inp.take d.w.length) ++ out.drop d.b.length) := by
  have h1 : il ≥ (genLayer d).nInputs := hil
  have h2 : ol ≥ (genLayer d).nOutputs := hol
  rw [layerForward, if_pos h1, if_pos h2]
  exact forward_spec ops d h ha inp hl out hout

theorem restLayers_spec (N : Nat) (ds : List (Dense F)) (hne : ds ≠ []) (n : Nat) (hc : Chained n ds) (s : Bufs F)
    (h1 : s.b1.length = N) (h2 : s.b2.length = N) (hn : n ≤ N) (hb : ∀ d ∈ ds, d.b.length ≤ N) :
    ∃ s' : Bufs F, restLayers ops N (ds.map genLayer) s = some (.ok, s') ∧ s'.b1.length = N ∧ s'.b2.length = N ∧
      s'.b2.take (Spec.nOut ds) = Spec.network ops ds (s.b1.take n) := by
  induction ds generalizing n s with
  | nil => exact absurd rfl hne
  | cons d ds ih =>
    obtain ⟨hw, hr, ha, hc'⟩ := hc
    have hdb : d.b.length ≤ N := hb d (by simp)
    have hf := layerForward_spec ops d hr ha s.b1 (by omega) s.b2 (by omega) N N (by omega) hdb
    cases ds with
    | nil =>
      refine ⟨{ s with b2 := Spec.layer ops d (s.b1.take d.w.length) ++ s.b2.drop d.b.length }, ?_, h1, ?_, ?_⟩
      · simp only [List.map_cons, List.map_nil, restLayers, hf, bind, Option.bind_some]
      · simp [length_layer]; omega
      · simp only [Spec.nOut, List.getLast?_singleton, Spec.network, List.foldl_cons, List.foldl_nil]
        rw [List.take_append_of_le_length (by simp [length_layer]), List.take_of_length_le (by simp [length_layer]), hw]
    | cons d2 ds =>
      have hl2 : (Spec.layer ops d (s.b1.take d.w.length) ++ s.b2.drop d.b.length).length = N := by
        simp [length_layer]; omega
      have hcp : copyBuf N s.b1 (Spec.layer ops d (s.b1.take d.w.length) ++ s.b2.drop d.b.length)
          = some (Spec.layer ops d (s.b1.take d.w.length) ++ s.b2.drop d.b.length) := by
        rw [copyBuf, if_pos ⟨by omega, by omega⟩, List.take_of_length_le (le_of_eq hl2), List.drop_eq_nil_of_le (as := s.b1) (by omega), List.append_nil]
      obtain ⟨s', hs', hl, hl', ht⟩ := ih (by simp) d.b.length hc' { b1 := Spec.layer ops d (s.b1.take d.w.length) ++ s.b2.drop d.b.length, b2 := Spec.layer ops d (s.b1.take d.w.length) ++ s.b2.drop d.b.length }
        hl2 hl2 hdb (fun d hd => hb d (by simp [hd]))
      refine ⟨s', ?_, hl, hl', ?_⟩
      · simp only [List.map_cons, restLayers, hf]
        simp only [bind, Option.bind_some, if_true, hcp]
        exact hs'
      · rw [show Spec.nOut (d :: d2 :: ds) = Spec.nOut (d2 :: ds) by simp [Spec.nOut, List.getLast?_cons_cons], ht]
        simp only [Spec.network, List.foldl_cons]
        rw [List.take_append_of_le_length (by simp [length_layer]), List.take_of_length_le (l := Spec.layer _ _ _) (by simp [length_layer]), hw]

theorem foldl_max_ge (l : List Nat) (a : Nat) : a ≤ l.foldl max a ∧ ∀ x ∈ l, x ≤ l.foldl max a := by
  induction l generalizing a with
  | nil => simp
  | cons y l ih =>
    obtain ⟨h1, h2⟩ := ih (max a y)
    simp only [List.foldl_cons, List.mem_cons, forall_eq_or_imp]
    exact ⟨by omega, by omega, h2⟩

theorem bufferSize_ge (ds : List (Dense F)) (d : Dense F) (h : d ∈ ds) : d.w.length ≤ bufferSize ds ∧ d.b.length ≤ bufferSize ds := by
  have := (foldl_max_ge (ds.map (·.nIn) ++ ds.map (·.nOut)) 0).2
  exact ⟨this _ (by simp; exact Or.inl ⟨d, h, rfl⟩), this _ (by simp; exact Or.inr ⟨d, h, rfl⟩)⟩

theorem largest_le (ls : List (Layer F)) (m N : Int) (hm : m ≤ N) (h : ∀ l ∈ ls, (l.nInputs : Int) ≤ N ∧ (l.nOutputs : Int) ≤ N) :
    ls.foldl (fun m l =>
      let m := if (l.nInputs : Int) > m then (l.nInputs : Int) else m
      if (l.nOutputs : Int) > m then (l.nOutputs : Int) else m) m ≤ N := by
  induction ls generalizing m with
  | nil => simpa
  | cons l ls ih =>
    have := h l (by simp)
    simp only [List.foldl_cons]
    refine ih _ ?_ (fun l hl => h l (by simp [hl]))
    split <;> split <;> omega

/-- The static buffers have the generated size; their contents are arbitrary. -/
def BufsOk (ds : List (Dense F)) (s : Bufs F) : Prop := s.b1.length = bufferSize ds ∧ s.b2.length = bufferSize ds

/-- **C36.** For every network of at least two layers that fit together, any weights and any arithmetic: generated code accepts every input of the right length, succeeds, and leaves the composition of the layers in the output buffer. -/
theorem C36_infer_is_composition (ds : List (Dense F)) (h2 : 2 ≤ ds.length) (x : List F) (hc : Chained x.length ds)
    (s : Bufs F) (hs : BufsOk ds s) :
    ∃ s', infer ops (genLoadable ds) s x = some (.ok, s') ∧ BufsOk ds s' ∧ s'.b2.take (Spec.nOut ds) = Spec.network ops ds x := by
  match ds, h2, hc with
  | d0 :: d1 :: ds, _, hc =>
    obtain ⟨hw, hr, ha, hc'⟩ := hc
    obtain ⟨hs1, hs2⟩ := hs
    have hbs := fun d hd => (bufferSize_ge (d0 :: d1 :: ds) d hd)
    have hlarge : ((genLoadable (d0 :: d1 :: ds)).actLen : Int) ≥ largest (genLoadable (d0 :: d1 :: ds)) := by
      apply largest_le
      · omega
      · intro l hl
        obtain ⟨d, hd, rfl⟩ := List.mem_map.1 hl
        have := hbs d hd
        exact ⟨by exact_mod_cast this.1, by exact_mod_cast this.2⟩
    set N := bufferSize (d0 :: d1 :: ds) with hN
    have hd0 := hbs d0 (by simp)
    have hf := layerForward_spec ops d0 hr ha x (by omega) s.b1 (by omega) x.length N (by omega) (by omega)
    have hb1 : (Spec.layer ops d0 (x.take d0.w.length) ++ s.b1.drop d0.b.length).length = N := by
      simp [length_layer]; omega
    obtain ⟨s', hs', hl1, hl2, ht⟩ := restLayers_spec ops N (d1 :: ds) (by simp) d0.b.length hc'
      { s with b1 := Spec.layer ops d0 (x.take d0.w.length) ++ s.b1.drop d0.b.length } hb1 hs2 hd0.2 (fun d hd => (hbs d (by simp [hd])).2)
    refine ⟨s', ?_, ⟨hl1, hl2⟩, ?_⟩
    · simp only [infer, genLoadable, List.map_cons]
      rw [if_pos (show x.length = (genLayer d0).nInputs from hw.symm)]
      rw [if_pos (by simpa [genLoadable] using hlarge)]
      rw [← hN, hf]
      simp only [bind, Option.bind_some, if_true]
      exact hs'
    · rw [show Spec.nOut (d0 :: d1 :: ds) = Spec.nOut (d1 :: ds) by simp [Spec.nOut, List.getLast?_cons_cons], ht]
      simp only [Spec.network, List.foldl_cons]
      rw [List.take_append_of_le_length (by simp [length_layer]), List.take_of_length_le (l := Spec.layer _ _ _) (by simp [length_layer]), List.take_of_length_le (by omega)]

/-- **C36.** An input of the wrong length is refused and no buffer is touched. -/
theorem C36_wrong_length_refused (ds : List (Dense F)) (d : Dense F) (x : List F) (h : ds.head? = some d) (h2 : 2 ≤ ds.length) (hx : x.length ≠ d.w.length) (s : Bufs F) :
    infer ops (genLoadable ds) s x = some (.sizeMismatch, s) := by
  match ds, h2 with
  | d0 :: d1 :: ds, _ =>
    simp at h; subst h
    simp only [infer, genLoadable, List.map_cons]
    rw [if_neg (show ¬ x.length = (genLayer d0).nInputs from hx)]

/-- **C36.** A network with a single layer is refused by the loadable code (`n_layers >= 2`), whatever the input. -/
theorem C36_single_layer_refused (d : Dense F) (x : List F) (s : Bufs F) :
    infer ops (genLoadable [d]) s x = some (.unsupported, s) ∧ predict ops (genLoadable [d]) s x = some (-2, s) := by
  have : infer ops (genLoadable [d]) s x = some (.unsupported, s) := by simp [infer, genLoadable]
  refine ⟨this, ?_⟩
  simp [predict, this, errCode]

/-! ### Exact rational arithmetic for concrete instances (exponential and logarithm are not used there) -/

/-- Rational arithmetic; `exp`, `log`, `tanh` are placeholders that the concrete instances do not exercise. -/
def ratOps : NetOps ℚ where
  zero := 0
  one := 1
  half := 1/2
  negInf := -1000000
  add := (· + ·)
  sub := (· - ·)
  mul := (· * ·)
  div := (· / ·)
  neg := (- ·)
  exp := id
  log := id
  tanh := id
  lt a b := decide (a < b)
  le a b := decide (a ≤ b)
  nearOne v := decide (v - 1 < 1/1000 ∧ 1 - v < 1/1000)

/-- A 2-3-2 network with a ReLU hidden layer. -/
def exNet : List (Dense ℚ) :=
  [{ act := .relu, w := [[1, -1, 2], [0, 1, 1]], b := [0, 1, -1] },
   { act := .identity, w := [[1, 2], [0, 1], [3, -1]], b := [1/2, 0] }]

example : 2 ≤ exNet.length ∧ Chained 2 exNet ∧ Spec.network ratOps exNet [1, 2] = [21/2, 1] := by
  refine ⟨by decide, ?_, by decide +kernel⟩
  simp [Chained, exNet]

example : (infer ratOps (genLoadable exNet) { b1 := [7, 7, 7], b2 := [8, 8, 8] } [1, 2]).map (fun r => (r.1, r.2.b2.take 2)) = some (.ok, [21/2, 1]) := by decide +kernel

/-! ### C37: no influence of earlier calls -/

/-- The calls an application can make on one network; inputs and output arrays of any length. -/
inductive Call (F : Type) where
  | predict (x : List F)
  | proba (x : List F) (outLength : Nat)
  | regress (x : List F) (outLength : Nat)

/-- What a call gives back: a class or error number, or an error code with the values written. -/
inductive Reply (F : Type) where
  | cls (c : Int)
  | values (e : EmlError) (out : List F)

/-- Running one call. -/
def runCall (n : Net F) (s : Bufs F) : Call F → Option (Reply F × Bufs F)
  | .predict x => (predict ops n s x).map (fun r => (.cls r.1, r.2))
  | .proba x l => (predictProba ops n s x l).map (fun r => (.values r.1.1 r.1.2, r.2))
  | .regress x l => (regress ops n s x l).map (fun r => (.values r.1.1 r.1.2, r.2))

/-- Running calls one after the other on the same static buffers, collecting the replies. -/
def runCalls (n : Net F) : Bufs F → List (Call F) → Option (List (Reply F) × Bufs F)
  | s, [] => some ([], s)
  | s, c :: cs => (runCall ops n s c).bind (fun r => (runCalls n r.2 cs).map (fun q => (r.1 :: q.1, q.2)))

theorem infer_cases (ds : List (Dense F)) (n : Nat) (hne : ds ≠ []) (hc : Chained n ds) (x : List F) :
    (∃ e, e ≠ .ok ∧ ∀ s, infer ops (genLoadable ds) s x = some (e, s)) ∨
    (2 ≤ ds.length ∧ x.length = n ∧ ∀ s, BufsOk ds s → ∃ s', infer ops (genLoadable ds) s x = some (.ok, s') ∧ BufsOk ds s' ∧
      s'.b2.take (Spec.nOut ds) = Spec.network ops ds x) := by
  match ds, hne, hc with
  | [d], _, _ => exact Or.inl ⟨_, by decide, fun s => (C36_single_layer_refused ops d x s).1⟩
  | d0 :: d1 :: ds, _, hc =>
    by_cases hx : x.length = n
    · subst hx
      exact Or.inr ⟨by simp, rfl, fun s hs => C36_infer_is_composition ops _ (by simp) x hc s hs⟩
    · have hw : d0.w.length = n := hc.1
      exact Or.inl ⟨_, by decide, fun s => C36_wrong_length_refused ops _ d0 x rfl (by simp) (by omega) s⟩

theorem outputs_gen (ds : List (Dense F)) (hne : ds ≠ []) : outputs (genLoadable ds) = some (Spec.nOut ds) := by
  simp only [outputs, genLoadable, List.getLast?_map, Spec.nOut]
  obtain ⟨d, hd⟩ := Option.ne_none_iff_exists'.1 (mt List.getLast?_eq_none_iff.1 hne)
  simp [hd, genLayer, Dense.nOut]

theorem nOut_le (ds : List (Dense F)) (hne : ds ≠ []) : Spec.nOut ds ≤ bufferSize ds := by
  obtain ⟨d, hd⟩ := Option.ne_none_iff_exists'.1 (mt List.getLast?_eq_none_iff.1 hne)
  simp only [Spec.nOut, hd]
  exact (bufferSize_ge ds d (List.mem_of_getLast? hd)).2

theorem decideClass_take (n : Nat) (b : List F) (h : n ≤ b.length) : decideClass ops n b = decideClass ops n (b.take n) := by
  unfold decideClass
  by_cases h1 : n = 1
  · simp [h1]
  · simp only [h1, if_false]
    simp only [List.length_take, Nat.min_eq_left h, le_refl, if_true, List.take_take, Nat.min_self]
    simp [h]

theorem length_network (ds : List (Dense F)) (hne : ds ≠ []) (x : List F) : (Spec.network ops ds x).length = Spec.nOut ds := by
  obtain ⟨ini, d, rfl⟩ := List.eq_nil_or_concat ds |>.resolve_left hne
  simp [Spec.network, Spec.nOut, List.foldl_append, length_layer]

/-- predict on generated code computes the class of the composed layers. -/
theorem predict_spec (ds : List (Dense F)) (h2 : 2 ≤ ds.length) (x : List F) (hc : Chained x.length ds) (s : Bufs F) (hs : BufsOk ds s) :
    ∃ c s', decideClass ops (Spec.nOut ds) (Spec.network ops ds x) = some c ∧ predict ops (genLoadable ds) s x = some (c, s') ∧ BufsOk ds s' := by
  have hne : ds ≠ [] := by rintro rfl; simp at h2
  obtain ⟨s', hi, hs', ht⟩ := C36_infer_is_composition ops ds h2 x hc s hs
  have hle := nOut_le ds hne
  have hd : decideClass ops (Spec.nOut ds) s'.b2 = decideClass ops (Spec.nOut ds) (Spec.network ops ds x) := by
    rw [decideClass_take ops _ _ (by rw [hs'.2]; exact hle), ht]
  have : ∃ c, decideClass ops (Spec.nOut ds) (Spec.network ops ds x) = some c := by
    have hl := length_network ops ds hne x
    unfold decideClass
    split
    · rename_i h1
      have : 0 < (Spec.network ops ds x).length := by omega
      simp [List.getElem?_eq_getElem this]
    · split
      · simp [hl]
      · simp
  obtain ⟨c, hcc⟩ := this
  refine ⟨c, s', hcc, ?_, hs'⟩
  simp [predict, hi, outputs_gen ds hne, hd, hcc]

/-- One call: buffers of the right size stay so, and the reply is the same from any two buffer contents. -/
theorem runCall_indep (ds : List (Dense F)) (n : Nat) (hne : ds ≠ []) (hc : Chained n ds) (c : Call F) :
    ∃ r, ∀ s, BufsOk ds s → ∃ s', runCall ops (genLoadable ds) s c = some (r, s') ∧ BufsOk ds s' := by
  have hout := outputs_gen ds hne
  have hle := nOut_le ds hne
  have hln := fun x => length_network ops ds hne x
  have houtp : outputsProba (genLoadable ds) = some (if Spec.nOut ds = 1 then 2 else Spec.nOut ds) := by simp [outputsProba, hout]
  cases c with
  | predict x =>
    rcases infer_cases ops ds n hne hc x with ⟨e, he, hi⟩ | ⟨h2, hx, -⟩
    · exact ⟨.cls (-errCode e), fun s hs => ⟨s, by simp [runCall, predict, hi, he], hs⟩⟩
    · subst hx
      have hex : ∃ c, decideClass ops (Spec.nOut ds) (Spec.network ops ds x) = some c := by
        obtain ⟨c, _, h, _⟩ := predict_spec ops ds h2 x hc { b1 := List.replicate (bufferSize ds) ops.zero, b2 := List.replicate (bufferSize ds) ops.zero } (by simp [BufsOk])
        exact ⟨c, h⟩
      obtain ⟨c, hcc⟩ := hex
      refine ⟨.cls c, fun s hs => ?_⟩
      obtain ⟨c', s', h, hp, hs'⟩ := predict_spec ops ds h2 x hc s hs
      rw [hcc] at h; cases h
      exact ⟨s', by simp [runCall, hp], hs'⟩
  | regress x l =>
    by_cases hl : l = Spec.nOut ds
    · rcases infer_cases ops ds n hne hc x with ⟨e, he, hi⟩ | ⟨h2, hx, hi⟩
      · exact ⟨.values e [], fun s hs => ⟨s, by simp [runCall, regress, hi, he, hout, hl], hs⟩⟩
      · refine ⟨.values .ok (Spec.network ops ds x), fun s hs => ?_⟩
        obtain ⟨s', hi, hs', ht⟩ := hi s hs
        exact ⟨s', by simp [runCall, regress, hi, hout, hl, hs'.2, hle, ht], hs'⟩
    · exact ⟨.values .sizeMismatch [], fun s hs => ⟨s, by simp [runCall, regress, hout, hl], hs⟩⟩
  | proba x l =>
    by_cases hl : l = (if Spec.nOut ds = 1 then 2 else Spec.nOut ds)
    · rcases infer_cases ops ds n hne hc x with ⟨e, he, hi⟩ | ⟨h2, hx, hi⟩
      · exact ⟨.values e [], fun s hs => ⟨s, by simp [runCall, predictProba, hi, he, houtp, hl], hs⟩⟩
      · by_cases h2' : (if Spec.nOut ds = 1 then 2 else Spec.nOut ds) = 2
        · have hpos : 0 < Spec.nOut ds := by split at h2' <;> omega
          have h0 : 0 < (Spec.network ops ds x).length := by rw [hln]; exact hpos
          set a := (Spec.network ops ds x)[0] with ha
          refine ⟨.values (if ops.nearOne (ops.add (ops.sub ops.one a) a) then .ok else .postconditionFailed) [ops.sub ops.one a, a], fun s hs => ?_⟩
          obtain ⟨s', hi, hs', ht⟩ := hi s hs
          have hb : s'.b2[0]? = some a := by
            have : (s'.b2.take (Spec.nOut ds))[0]? = some a := by rw [ht, List.getElem?_eq_getElem h0]
            rw [List.getElem?_take, if_pos hpos] at this
            exact this
          refine ⟨s', ?_, hs'⟩
          simp only [runCall, predictProba, houtp, hl, bind, Option.bind_some, if_true, hi, h2', hb, Option.map_some]
        · have h1 : Spec.nOut ds ≠ 1 := by intro h; simp [h] at h2'
          simp only [h1, if_false] at hl h2'
          refine ⟨.values (if ops.nearOne ((Spec.network ops ds x).foldl ops.add ops.zero) then .ok else .postconditionFailed) (Spec.network ops ds x), fun s hs => ?_⟩
          obtain ⟨s', hi, hs', ht⟩ := hi s hs
          refine ⟨s', ?_, hs'⟩
          simp only [runCall, predictProba, houtp, h1, if_false, hl, bind, Option.bind_some, if_true, hi, h2', Option.map_some, hs'.2, hle, ht]
    · refine ⟨.values .sizeMismatch [], fun s hs => ⟨s, ?_, hs⟩⟩
      simp only [runCall, predictProba, houtp, bind, Option.bind_some, if_neg hl, Option.map_some]

/-- **C37.** For every network whose layers fit together: any sequence of calls runs without faults, and every reply equals the reply the same call gives on its own, whatever the buffers held at the start. -/
theorem C37_history_independent (ds : List (Dense F)) (n : Nat) (hne : ds ≠ []) (hc : Chained n ds) (s s0 : Bufs F) (hs : BufsOk ds s) (hs0 : BufsOk ds s0)
    (calls : List (Call F)) :
    ∃ rs s', runCalls ops (genLoadable ds) s calls = some (rs, s') ∧
      calls.map (fun c => (runCall ops (genLoadable ds) s0 c).map Prod.fst) = rs.map some := by
  induction calls generalizing s with
  | nil => exact ⟨[], s, rfl, rfl⟩
  | cons c cs ih =>
    obtain ⟨r, hr⟩ := runCall_indep ops ds n hne hc c
    obtain ⟨s1, h1, hs1⟩ := hr s hs
    obtain ⟨s2, h2, _⟩ := hr s0 hs0
    obtain ⟨rs, s', h3, h4⟩ := ih s1 hs1
    refine ⟨r :: rs, s', ?_, ?_⟩
    · simp [runCalls, h1, h3]
    · simp [h2, h4]

example : BufsOk exNet { b1 := [7, 7, 7], b2 := [8, 8, 8] } ∧
    ((runCalls ratOps (genLoadable exNet) { b1 := [7, 7, 7], b2 := [8, 8, 8] } [.predict [1, 2], .predict [1], .predict [-1, -3]]).map (fun r => r.1.map (fun q => match q with | .cls c => c | .values .. => -99)))
      = some [0, -1, 0] := by unfold BufsOk; decide +kernel

/-! ### C38: class decision -/

section order
variable [LinearOrder F]

/-- State of the arg-max loop after the values `done`: either nothing was seen, or `best` is the first largest of them. -/
theorem argmaxLoop_spec (hlt : ∀ a b, ops.lt a b = true ↔ a < b) (vs done : List F) (vmax : F) (best : Int)
    (hinv : (done = [] ∧ best = -1 ∧ ∀ v ∈ vs, vmax < v) ∨
      (∃ i : Nat, best = i ∧ done[i]? = some vmax ∧ (∀ (j : Nat) w, done[j]? = some w → w ≤ vmax) ∧ (∀ (j : Nat) w, j < i → done[j]? = some w → w < vmax)))
    (hne : done ++ vs ≠ []) :
    ∃ i : Nat, argmaxLoop ops vs done.length vmax best = i ∧ Spec.IsFirstMax (· ≤ ·) (· < ·) (done ++ vs) i := by
  induction vs generalizing done vmax best with
  | nil =>
    rcases hinv with ⟨rfl, _, _⟩ | ⟨i, hb, h1, h2, h3⟩
    · simp at hne
    · exact ⟨i, by simpa [argmaxLoop] using hb, vmax, by simpa using h1, by simpa using h2, by simpa using h3⟩
  | cons v vs ih =>
    have hcons : done ++ v :: vs = (done ++ [v]) ++ vs := by simp
    rw [hcons]
    have hlen : ((done ++ [v]).length : Int) = done.length + 1 := by simp
    by_cases hv : vmax < v
    · rw [argmaxLoop, if_pos ((hlt _ _).2 hv), ← hlen]
      refine ih (done ++ [v]) v done.length (Or.inr ⟨done.length, rfl, by simp, ?_, ?_⟩) (by simp)
      · intro j w hw
        rw [List.getElem?_append] at hw
        split at hw
        · rcases hinv with ⟨rfl, _, _⟩ | ⟨i, hb, h1, h2, h3⟩
          · simp at hw
          · exact le_of_lt (lt_of_le_of_lt (h2 _ _ hw) hv)
        · have : w ∈ [v] := List.mem_of_getElem? hw
          simp at this; exact le_of_eq this
      · intro j w hj hw
        rw [List.getElem?_append_left hj] at hw
        rcases hinv with ⟨rfl, _, _⟩ | ⟨i, hb, h1, h2, h3⟩
        · simp at hw
        · exact lt_of_le_of_lt (h2 _ _ hw) hv
    · rw [argmaxLoop, if_neg (by rw [hlt]; exact hv), ← hlen]
      rcases hinv with ⟨rfl, _, h⟩ | ⟨i, hb, h1, h2, h3⟩
      · exact absurd (h v (by simp)) hv
      · have hi : i < done.length := by
          by_contra hc
          rw [List.getElem?_eq_none (by omega)] at h1; cases h1
        refine ih (done ++ [v]) vmax best (Or.inr ⟨i, hb, by rw [List.getElem?_append_left hi]; exact h1, ?_, ?_⟩) (by simp)
        · intro j w hw
          rw [List.getElem?_append] at hw
          split at hw
          · exact h2 _ _ hw
          · have : w ∈ [v] := List.mem_of_getElem? hw
            simp at this; subst this; exact not_lt.1 hv
        · intro j w hj hw
          rw [List.getElem?_append_left (by omega)] at hw
          exact h3 _ _ hj hw

theorem argmax_spec (hlt : ∀ a b, ops.lt a b = true ↔ a < b) (vs : List F) (hne : vs ≠ []) (hinf : ∀ v ∈ vs, ops.negInf < v) :
    ∃ i : Nat, argmax ops vs = i ∧ Spec.IsFirstMax (· ≤ ·) (· < ·) vs i :=
  argmaxLoop_spec ops hlt vs [] ops.negInf (-1) (Or.inl ⟨rfl, rfl, hinf⟩) (by simpa using hne)

/-- **C38 (class).** Values ordered linearly and above `-INFINITY`: with several outputs, predict returns the first position of the largest output of the network function. -/
theorem C38_predict_argmax (hlt : ∀ a b, ops.lt a b = true ↔ a < b) (ds : List (Dense F)) (h2 : 2 ≤ ds.length) (x : List F) (hc : Chained x.length ds)
    (s : Bufs F) (hs : BufsOk ds s) (hk : 2 ≤ Spec.nOut ds) (hinf : ∀ v ∈ Spec.network ops ds x, ops.negInf < v) :
    ∃ (i : Nat) (s' : Bufs F), predict ops (genLoadable ds) s x = some ((i : Int), s') ∧ Spec.IsFirstMax (· ≤ ·) (· < ·) (Spec.network ops ds x) i := by
  have hne : ds ≠ [] := by rintro rfl; simp at h2
  obtain ⟨c, s', hd, hp, _⟩ := predict_spec ops ds h2 x hc s hs
  have hl := length_network ops ds hne x
  rw [decideClass, if_neg (by omega), if_pos (by omega), if_pos (by omega), List.take_of_length_le (by omega)] at hd
  obtain ⟨i, hi, hm⟩ := argmax_spec ops hlt (Spec.network ops ds x) (by intro h; rw [h] at hl; simp at hl; omega) hinf
  rw [hi] at hd
  cases hd
  exact ⟨i, s', hp, hm⟩

/-- **C38 (class).** With a single output, predict returns 1 exactly when that output exceeds one half and 0 otherwise. -/
theorem C38_predict_threshold (hlt : ∀ a b, ops.lt a b = true ↔ a < b) (ds : List (Dense F)) (h2 : 2 ≤ ds.length) (x : List F) (hc : Chained x.length ds)
    (s : Bufs F) (hs : BufsOk ds s) (v : F) (hv : Spec.network ops ds x = [v]) :
    ∃ s', predict ops (genLoadable ds) s x = some (if ops.half < v then 1 else 0, s') := by
  have hne : ds ≠ [] := by rintro rfl; simp at h2
  obtain ⟨c, s', hd, hp, _⟩ := predict_spec ops ds h2 x hc s hs
  have hl := length_network ops ds hne x
  rw [hv] at hl hd
  simp at hl
  rw [decideClass, ← hl, if_pos rfl] at hd
  simp at hd
  refine ⟨s', ?_⟩
  rw [hp, ← hd]
  by_cases h : ops.half < v
  · simp [h, (hlt _ _).2 h]
  · simp [h, hlt]

example : ∃ (i : Nat) (s' : Bufs ℚ), predict ratOps (genLoadable exNet) { b1 := [7, 7, 7], b2 := [8, 8, 8] } [1, 2] = some ((i : Int), s') ∧
    Spec.IsFirstMax (· ≤ ·) (· < ·) (Spec.network ratOps exNet [1, 2]) i :=
  C38_predict_argmax ratOps (fun a b => by simp [ratOps]) exNet (by decide) [1, 2] (by simp [Chained, exNet]) _ (by unfold BufsOk; decide +kernel) (by decide) (by decide +kernel)

end order

/-- predict_proba on generated code: the values written. -/
theorem proba_values (ds : List (Dense F)) (h2 : 2 ≤ ds.length) (x : List F) (hc : Chained x.length ds) (s : Bufs F) (hs : BufsOk ds s) :
    (Spec.nOut ds ≠ 1 → Spec.nOut ds ≠ 2 → ∃ e s', predictProba ops (genLoadable ds) s x (Spec.nOut ds) = some ((e, Spec.network ops ds x), s')) ∧
    (∀ a, Spec.nOut ds = 1 ∨ Spec.nOut ds = 2 → (Spec.network ops ds x)[0]? = some a →
      ∃ e s', predictProba ops (genLoadable ds) s x 2 = some ((e, [ops.sub ops.one a, a]), s')) := by
  have hne : ds ≠ [] := by rintro rfl; simp at h2
  have hout := outputs_gen ds hne
  have hle := nOut_le ds hne
  obtain ⟨s', hi, hs', ht⟩ := C36_infer_is_composition ops ds h2 x hc s hs
  have houtp : outputsProba (genLoadable ds) = some (if Spec.nOut ds = 1 then 2 else Spec.nOut ds) := by simp [outputsProba, hout]
  constructor
  · intro h1 h2'
    refine ⟨if ops.nearOne ((Spec.network ops ds x).foldl ops.add ops.zero) then .ok else .postconditionFailed, s', ?_⟩
    simp only [predictProba, houtp, h1, if_false, bind, Option.bind_some, if_true, hi, h2', hs'.2, hle, ht]
  · intro a h12 ha
    have hif : (if Spec.nOut ds = 1 then 2 else Spec.nOut ds) = 2 := by rcases h12 with h | h <;> simp [h]
    have hb : s'.b2[0]? = some a := by
      rw [← ht, List.getElem?_take, if_pos (by omega)] at ha; exact ha
    refine ⟨if ops.nearOne (ops.add (ops.sub ops.one a) a) then .ok else .postconditionFailed, s', ?_⟩
    simp only [predictProba, houtp, hif, bind, Option.bind_some, if_true, hi, hb]

section field
variable {K : Type} [Field K] [LinearOrder K] [IsStrictOrderedRing K]

/-- The operations agree with the order and the field operations used by predict_proba. -/
structure ExactOps (ops : NetOps K) : Prop where
  hlt : ∀ a b, ops.lt a b = true ↔ a < b
  hone : ops.one = 1
  hhalf : ops.half = 1 / 2
  hsub : ∀ a b, ops.sub a b = a - b

/-- **C38 (consistency), all networks except those with exactly two outputs** (see `C38_refuted`): the class predict returns has the largest of the probabilities predict_proba writes. -/
theorem C38_proba_consistent_partial (ops : NetOps K) (hx : ExactOps ops) (ds : List (Dense K)) (h2 : 2 ≤ ds.length) (x : List K) (hc : Chained x.length ds)
    (s s0 : Bufs K) (hs : BufsOk ds s) (hs0 : BufsOk ds s0) (hpos : 1 ≤ Spec.nOut ds) (hk : Spec.nOut ds ≠ 2) (hinf : ∀ v ∈ Spec.network ops ds x, ops.negInf < v) :
    ∃ (i : Nat) (s' : Bufs K) (e : EmlError) (p : List K) (s'' : Bufs K), predict ops (genLoadable ds) s x = some ((i : Int), s') ∧
      predictProba ops (genLoadable ds) s0 x (if Spec.nOut ds = 1 then 2 else Spec.nOut ds) = some ((e, p), s'') ∧
      ∃ pi, p[i]? = some pi ∧ ∀ q ∈ p, q ≤ pi := by
  have hne : ds ≠ [] := by rintro rfl; simp at h2
  obtain ⟨hA, hB⟩ := proba_values ops ds h2 x hc s0 hs0
  by_cases h1 : Spec.nOut ds = 1
  · have hl := length_network ops ds hne x
    rw [h1] at hl
    obtain ⟨v, hv⟩ := List.length_eq_one_iff.1 hl
    obtain ⟨s', hp⟩ := C38_predict_threshold ops hx.hlt ds h2 x hc s hs v hv
    obtain ⟨e, s'', hq⟩ := hB v (Or.inl h1) (by simp [hv])
    rw [hx.hhalf] at hp
    rw [hx.hsub, hx.hone] at hq
    by_cases hh : (1 / 2 : K) < v
    · refine ⟨1, s', e, _, s'', by rw [hp]; simp only [hh, if_true, if_false]; rfl, by simpa [h1] using hq, v, by simp, ?_⟩
      intro q hq; simp at hq
      rcases hq with rfl | rfl
      · linarith
      · exact le_refl _
    · refine ⟨0, s', e, _, s'', by rw [hp]; simp only [hh, if_true, if_false]; rfl, by simpa [h1] using hq, 1 - v, by simp, ?_⟩
      intro q hq; simp at hq
      rcases hq with rfl | rfl
      · exact le_refl _
      · linarith
  · obtain ⟨e, s'', hq⟩ := hA h1 hk
    obtain ⟨i, s', hp, v, hv, hmax, _⟩ := C38_predict_argmax ops hx.hlt ds h2 x hc s hs (by omega) hinf
    refine ⟨i, s', e, _, s'', hp, by simpa [h1] using hq, v, hv, ?_⟩
    intro q hq
    obtain ⟨j, hj⟩ := List.mem_iff_getElem?.1 hq
    exact hmax j q hj

/-- **C38 (consistency) is false for two outputs**: whenever a network has two outputs `[p, q]` with `p + q = 1` (a softmax over two classes, say) and `p ≠ q`, predict_proba reports `p` as the probability of class 1 and `q` of class 0, so the class that predict returns is the one with the smaller reported probability. -/
theorem C38_refuted (ops : NetOps K) (hx : ExactOps ops) (ds : List (Dense K)) (h2 : 2 ≤ ds.length) (x : List K) (hc : Chained x.length ds)
    (s s0 : Bufs K) (hs : BufsOk ds s) (hs0 : BufsOk ds s0) (p q : K) (hv : Spec.network ops ds x = [p, q]) (hsum : p + q = 1) (hpq : p ≠ q)
    (hinf : ops.negInf < p ∧ ops.negInf < q) :
    ∃ (i : Nat) (s' : Bufs K) (e : EmlError) (pr : List K) (s'' : Bufs K), predict ops (genLoadable ds) s x = some ((i : Int), s') ∧
      predictProba ops (genLoadable ds) s0 x 2 = some ((e, pr), s'') ∧ pr = [q, p] ∧
      ∃ a b, pr[i]? = some a ∧ pr[1 - i]? = some b ∧ a < b := by
  have hne : ds ≠ [] := by rintro rfl; simp at h2
  have hl := length_network ops ds hne x
  rw [hv] at hl; simp at hl
  obtain ⟨hA, hB⟩ := proba_values ops ds h2 x hc s0 hs0
  obtain ⟨e, s'', hq⟩ := hB p (Or.inr hl.symm) (by simp [hv])
  obtain ⟨i, s', hp, v, hvi, hmax, _⟩ := C38_predict_argmax ops hx.hlt ds h2 x hc s hs (by omega) (by rw [hv]; simpa using hinf)
  rw [hx.hsub, hx.hone, show (1 : K) - p = q by linarith] at hq
  rw [hv] at hvi hmax
  have m0 := hmax 0 p (by simp)
  have m1 := hmax 1 q (by simp)
  refine ⟨i, s', e, _, s'', hp, hq, rfl, ?_⟩
  match i, hvi with
  | 0, hvi => simp at hvi; subst hvi; exact ⟨q, p, by simp, by simp, lt_of_le_of_ne m1 (Ne.symm hpq)⟩
  | 1, hvi => simp at hvi; subst hvi; exact ⟨p, q, by simp, by simp, lt_of_le_of_ne m0 hpq⟩
  | i + 2, hvi => simp at hvi
end field

/-- A network with the two outputs `[3/4, 1/4]`. -/
def exTwo : List (Dense ℚ) :=
  [{ act := .identity, w := [[1]], b := [0] }, { act := .identity, w := [[3/4, 1/4]], b := [0, 0] }]

example : ExactOps ratOps ∧ Chained 1 exTwo ∧ Spec.network ratOps exTwo [1] = [3/4, 1/4] ∧
    (predict ratOps (genLoadable exTwo) { b1 := [0, 0], b2 := [0, 0] } [1]).map (·.1) = some 0 ∧
    (predictProba ratOps (genLoadable exTwo) { b1 := [0, 0], b2 := [0, 0] } [1] 2).map (·.1) = some (.ok, [1/4, 3/4]) := by
  refine ⟨⟨fun a b => by simp [ratOps], rfl, rfl, fun _ _ => rfl⟩, by simp [Chained, exTwo], by decide +kernel, by decide +kernel, by decide +kernel⟩

/-! ### C40: inline and loadable -/

theorem inlineLayers_spec (N : Nat) (ds : List (Dense F)) (hne : ds ≠ []) (n : Nat) (hc : Chained n ds) (s : Bufs F)
    (h1 : s.b1.length = N) (h2 : s.b2.length = N) (hn : n ≤ N) (hb : ∀ d ∈ ds, d.b.length ≤ N) :
    ∃ s' : Bufs F, inlineLayers ops N ds s = some (.ok, s') ∧ s'.b1.length = N ∧ s'.b2.length = N ∧
      s'.b2.take (Spec.nOut ds) = Spec.network ops ds (s.b1.take n) := by
  induction ds generalizing n s with
  | nil => exact absurd rfl hne
  | cons d ds ih =>
    obtain ⟨hw, hr, ha, hc'⟩ := hc
    have hdb : d.b.length ≤ N := hb d (by simp)
    have hf := forward_spec ops d hr ha s.b1 (by omega) s.b2 (by omega)
    have hl2 : (Spec.layer ops d (s.b1.take d.w.length) ++ s.b2.drop d.b.length).length = N := by
      simp [length_layer]; omega
    have hcp : copyBuf N s.b1 (Spec.layer ops d (s.b1.take d.w.length) ++ s.b2.drop d.b.length)
        = some (Spec.layer ops d (s.b1.take d.w.length) ++ s.b2.drop d.b.length) := by
      rw [copyBuf, if_pos ⟨by omega, by omega⟩, List.take_of_length_le (le_of_eq hl2), List.drop_eq_nil_of_le (as := s.b1) (by omega), List.append_nil]
    have ht0 : (Spec.layer ops d (s.b1.take d.w.length) ++ s.b2.drop d.b.length).take d.b.length = Spec.layer ops d (s.b1.take n) := by
      rw [List.take_append_of_le_length (by simp [length_layer]), List.take_of_length_le (l := Spec.layer _ _ _) (by simp [length_layer]), hw]
    cases ds with
    | nil =>
      refine ⟨{ b1 := _, b2 := _ }, ?_, hl2, hl2, ?_⟩
      · simp only [inlineLayers, hf, bind, Option.bind_some, if_true, hcp]
      · simpa [Spec.nOut, Spec.network] using ht0
    | cons d2 ds =>
      obtain ⟨s', hs', hl, hl', ht⟩ := ih (by simp) d.b.length hc' { b1 := Spec.layer ops d (s.b1.take d.w.length) ++ s.b2.drop d.b.length, b2 := Spec.layer ops d (s.b1.take d.w.length) ++ s.b2.drop d.b.length }
        hl2 hl2 hdb (fun d hd => hb d (by simp [hd]))
      refine ⟨s', ?_, hl, hl', ?_⟩
      · rw [inlineLayers]
        simp only [hf, bind, Option.bind_some, if_true, hcp]
        exact hs'
      · rw [show Spec.nOut (d :: d2 :: ds) = Spec.nOut (d2 :: ds) by simp [Spec.nOut, List.getLast?_cons_cons], ht]
        simp only [Spec.network, List.foldl_cons]
        rw [ht0]

/-- **C40.** The inline code computes the composition of the layers, for networks of one layer or more. -/
theorem C40_inline_infer_is_composition (ds : List (Dense F)) (hne : ds ≠ []) (x : List F) (hc : Chained x.length ds) (s : Bufs F) (hs : BufsOk ds s) :
    ∃ s', inlineInfer ops ds s x = some (.ok, s') ∧ BufsOk ds s' ∧ s'.b2.take (Spec.nOut ds) = Spec.network ops ds x := by
  obtain ⟨hs1, hs2⟩ := hs
  have hx : x.length ≤ bufferSize ds := by
    match ds, hne, hc with
    | d :: ds, _, hc => have := (bufferSize_ge (d :: ds) d (by simp)).1; rw [hc.1] at this; exact this
  obtain ⟨s', h, hl1, hl2, ht⟩ := inlineLayers_spec ops (bufferSize ds) ds hne x.length hc { s with b1 := x ++ s.b1.drop x.length }
    (by simp; omega) hs2 hx (fun d hd => (bufferSize_ge ds d hd).2)
  refine ⟨s', ?_, ⟨hl1, hl2⟩, ?_⟩
  · rw [inlineInfer, if_pos (by omega)]; exact h
  · rw [ht]; simp

/-- **C40.** Inline and loadable code return the same class for every input of the right length, any weights, buffers and arithmetic. -/
theorem C40_inline_eq_loadable (ds : List (Dense F)) (h2 : 2 ≤ ds.length) (x : List F) (hc : Chained x.length ds) (s s0 : Bufs F) (hs : BufsOk ds s) (hs0 : BufsOk ds s0) :
    ∃ (c : Int) (s' s0' : Bufs F), inlinePredict ops ds s x = some (c, s') ∧ predict ops (genLoadable ds) s0 x = some (c, s0') := by
  have hne : ds ≠ [] := by rintro rfl; simp at h2
  obtain ⟨c, s0', hd, hp, _⟩ := predict_spec ops ds h2 x hc s0 hs0
  obtain ⟨s', hi, hs', ht⟩ := C40_inline_infer_is_composition ops ds hne x hc s hs
  refine ⟨c, s', s0', ?_, hp⟩
  have hle := nOut_le ds hne
  obtain ⟨d, hdl⟩ := Option.ne_none_iff_exists'.1 (mt List.getLast?_eq_none_iff.1 hne)
  have hno : d.nOut = Spec.nOut ds := by simp [Spec.nOut, hdl, Dense.nOut]
  have : decideClass ops (Spec.nOut ds) s'.b2 = some c := by
    rw [decideClass_take ops _ _ (by rw [hs'.2]; exact hle), ht, hd]
  simp [inlinePredict, hi, hdl, hno, this]

example : (inlinePredict ratOps exNet { b1 := [7, 7, 7], b2 := [8, 8, 8] } [1, 2]).map (·.1) = some 0 := by decide +kernel

/-- Outside C40: the inline code does not check the length of its input. With too short an input it answers from what an earlier call left in the buffer, where the loadable code reports an error. -/
theorem C40_inline_length_unchecked : ∃ (s : Bufs ℚ), BufsOk exNet s ∧
    (inlinePredict ratOps exNet s [1]).map (·.1) = some 1 ∧ (predict ratOps (genLoadable exNet) s [1]).map (·.1) = some (-1) :=
  ⟨{ b1 := [0, -2, 0], b2 := [0, 0, 0] }, by unfold BufsOk; decide +kernel, by decide +kernel, by decide +kernel⟩

/-! ### C41: fixed-point arg-max -/

theorem argmaxFixedLoop_none (vs : List Int) (i vmax best : Int) (h : ∀ v ∈ vs, v ≤ vmax) : argmaxFixedLoop vs i vmax best = best := by
  induction vs generalizing i with
  | nil => rfl
  | cons v vs ih =>
    have := h v (by simp)
    rw [argmaxFixedLoop, if_neg (by omega), ih _ (fun w hw => h w (by simp [hw]))]

/-- **C41 is false**: for every non-empty array whose first value is a maximum, the fixed-point arg-max returns -1. -/
theorem C41_refuted (v : Int) (vs : List Int) (h : ∀ w ∈ vs, w ≤ v) : argmaxFixed (v :: vs) = -1 := by
  rw [argmaxFixed]
  exact argmaxFixedLoop_none _ _ _ _ (by simpa using h)

example : argmaxFixed [5, 3, 4] = -1 := by decide

theorem argmaxFixedLoop_spec (vs done : List Int) (vmax best : Int)
    (hinv : (∀ (j : Nat) w, done[j]? = some w → w ≤ vmax) ∧
      ((best = -1 ∧ ∃ v ∈ vs, vmax < v) ∨ (∃ i : Nat, best = i ∧ done[i]? = some vmax ∧ (∀ (j : Nat) w, j < i → done[j]? = some w → w < vmax)))) :
    ∃ i : Nat, argmaxFixedLoop vs done.length vmax best = i ∧ Spec.IsFirstMax (· ≤ ·) (· < ·) (done ++ vs) i := by
  induction vs generalizing done vmax best with
  | nil =>
    obtain ⟨h0, h⟩ := hinv
    rcases h with ⟨_, v, hv, _⟩ | ⟨i, hb, h1, h3⟩
    · simp at hv
    · exact ⟨i, by simpa [argmaxFixedLoop] using hb, vmax, by simpa using h1, by simpa using h0, by simpa using h3⟩
  | cons v vs ih =>
    obtain ⟨h0, h⟩ := hinv
    have hcons : done ++ v :: vs = (done ++ [v]) ++ vs := by simp
    rw [hcons]
    have hlen : ((done ++ [v]).length : Int) = done.length + 1 := by simp
    have hle : ∀ m, vmax ≤ m → v ≤ m → ∀ (j : Nat) w, (done ++ [v])[j]? = some w → w ≤ m := by
      intro m hm hvm j w hw
      rw [List.getElem?_append] at hw
      split at hw
      · exact le_trans (h0 _ _ hw) hm
      · have : w ∈ [v] := List.mem_of_getElem? hw
        simp at this; omega
    by_cases hv : v > vmax
    · rw [argmaxFixedLoop, if_pos hv, ← hlen]
      refine ih (done ++ [v]) v done.length ⟨hle v (by omega) (le_refl _), Or.inr ⟨done.length, rfl, by simp, ?_⟩⟩
      intro j w hj hw
      rw [List.getElem?_append_left hj] at hw
      have := h0 _ _ hw; omega
    · rw [argmaxFixedLoop, if_neg hv, ← hlen]
      refine ih (done ++ [v]) vmax best ⟨hle vmax (le_refl _) (by omega), ?_⟩
      rcases h with ⟨hb, u, hu, hlu⟩ | ⟨i, hb, h1, h3⟩
      · refine Or.inl ⟨hb, u, ?_, hlu⟩
        rcases List.mem_cons.1 hu with rfl | hu
        · omega
        · exact hu
      · have hi : i < done.length := by
          by_contra hc
          rw [List.getElem?_eq_none (by omega)] at h1; cases h1
        refine Or.inr ⟨i, hb, by rw [List.getElem?_append_left hi]; exact h1, ?_⟩
        intro j w hj hw
        rw [List.getElem?_append_left (by omega)] at hw
        exact h3 _ _ hj hw

/-- **C41, when the first value is not a maximum**: the result is the first position of the largest value. The other inputs are exactly those of `C41_refuted`. -/
theorem C41_argmax_fixed_partial (v : Int) (vs : List Int) (h : ∃ w ∈ vs, v < w) :
    ∃ i : Nat, argmaxFixed (v :: vs) = i ∧ Spec.IsFirstMax (· ≤ ·) (· < ·) (v :: vs) i := by
  obtain ⟨w, hw, hvw⟩ := h
  exact argmaxFixedLoop_spec (v :: vs) [] v (-1) ⟨by simp, Or.inl ⟨rfl, w, by simp [hw], hvw⟩⟩

example : argmaxFixed [3, 5, 4, 5] = 1 := by decide

/-! ### C67: the fixed-point network is a stub -/

theorem fixedLayers_indep (bufLen : Nat) (acts : List Act) (b1 b1' b2 : List Int) (hl : b1.length = b1'.length) (hb : bufLen ≤ b1.length) (hb2 : bufLen ≤ b2.length) :
    ∃ (e : EmlError) (t t' : List Int), fixedLayers bufLen acts { b1 := b1, b2 := b2 } = some (e, { b1 := t, b2 := b2 }) ∧
      fixedLayers bufLen acts { b1 := b1', b2 := b2 } = some (e, { b1 := t', b2 := b2 }) ∧ t.length = b1.length ∧ t'.length = b1.length := by
  induction acts generalizing b1 b1' with
  | nil => exact ⟨.ok, b1, b1', rfl, rfl, rfl, hl.symm⟩
  | cons a as ih =>
    have hcp : ∀ b : List Int, b.length = b1.length → copyBuf bufLen b b2 = some (b2.take bufLen ++ b.drop bufLen) := by
      intro b hb'; rw [copyBuf, if_pos ⟨by omega, hb2⟩]
    by_cases ha : a = .identity ∨ a = .relu ∨ a = .logistic ∨ a = .softmax
    · have hlen : ∀ b : List Int, b.length = b1.length → (b2.take bufLen ++ b.drop bufLen).length = b1.length := by
        intro b hb'; simp; omega
      obtain ⟨e, t, t', h1, h2, h3, h4⟩ := ih (b2.take bufLen ++ b1.drop bufLen) (b2.take bufLen ++ b1'.drop bufLen)
        (by rw [hlen b1 rfl, hlen b1' hl.symm]) (by rw [hlen b1 rfl]; exact hb)
      rw [hlen b1 rfl] at h3 h4
      refine ⟨e, t, t', ?_, ?_, h3, h4⟩
      · simp only [fixedLayers, forwardQ16, if_pos ha, hcp b1 rfl, bind, Option.bind_some, h1]
      · simp only [fixedLayers, forwardQ16, if_pos ha, hcp b1' hl.symm, bind, Option.bind_some, h2]
    · exact ⟨.unsupported, b1, b1', by simp only [fixedLayers, forwardQ16, if_neg ha], by simp only [fixedLayers, forwardQ16, if_neg ha], rfl, hl.symm⟩

/-- The static buffers start zeroed and keep their size. -/
def zeroBufs (n : Nat) : Bufs Int := { b1 := List.replicate n 0, b2 := List.replicate n 0 }

/-- **C67 (the claim that a fixed-point network predicts like the float one is false).** Code generated with `use_fixedpoint` gives the same answer for every input: the layer computation is disabled in the source. -/
theorem C67_refuted (bufLen nOutputs : Nat) (acts : List Act) (hn : nOutputs ≤ bufLen) (x y : List Int) (hx : x.length ≤ bufLen) (hy : y.length ≤ bufLen) :
    ((fixedPredict bufLen nOutputs acts (zeroBufs bufLen) x).map (·.1) = (fixedPredict bufLen nOutputs acts (zeroBufs bufLen) y).map (·.1)) ∧
    ∃ c ∈ [0, -1, -2, -5], (fixedPredict bufLen nOutputs acts (zeroBufs bufLen) x).map (·.1) = some c := by
  obtain ⟨e, t, t', h1, h2, -, -⟩ := fixedLayers_indep bufLen acts (x ++ (List.replicate bufLen (0 : Int)).drop x.length) (y ++ (List.replicate bufLen (0 : Int)).drop y.length)
    (List.replicate bufLen 0) (by simp; omega) (by simp; omega) (by simp)
  have e1 : fixedPredict bufLen nOutputs acts (zeroBufs bufLen) x = _ := rfl
  have he : e = .ok ∨ e = .unsupported := by
    clear h2
    generalize x ++ (List.replicate bufLen (0 : Int)).drop x.length = b1 at h1
    clear e1
    induction acts generalizing b1 with
    | nil => simp [fixedLayers] at h1; exact Or.inl h1.1.symm
    | cons a as ih =>
      by_cases ha : a = .identity ∨ a = .relu ∨ a = .logistic ∨ a = .softmax
      · simp only [fixedLayers, forwardQ16, if_pos ha, bind] at h1
        obtain ⟨b, hb, h1⟩ := Option.bind_eq_some_iff.1 h1
        exact ih b h1
      · simp only [fixedLayers, forwardQ16, if_neg ha] at h1
        simp at h1; exact Or.inr h1.1.symm
  simp only [fixedPredict, zeroBufs, List.length_replicate, hx, hy, if_true, h1, h2, bind, Option.bind_some]
  rcases he with rfl | rfl
  · simp only [if_true]
    by_cases h1 : nOutputs = 1
    · subst h1
      simp [show 0 < bufLen by omega]
    · by_cases h2 : nOutputs > 1
      · simp only [h1, if_false, h2, if_true, hn, List.take_replicate, Nat.min_eq_left hn]
        have : argmaxFixed (List.replicate nOutputs 0) = -1 := by
          obtain ⟨k, rfl⟩ : ∃ k, nOutputs = k + 1 := ⟨nOutputs - 1, by omega⟩
          rw [List.replicate_succ]
          exact C41_refuted 0 _ (by intro w hw; simp at hw; omega)
        simp [this]
      · simp [h1, h2]
  · simp [errCode]

example : (fixedPredict 3 2 [.relu, .softmax] (zeroBufs 3) [65536, 0, 1]).map (·.1) = some (-1) := by decide

/-! ### C42: Keras conversion -/

/-- What a Keras layer computes (inference time): the meaning is given by Keras, not by the converter. `none`: not one of the supported layers. -/
def kerasMeaning : KLayer F → Option (List F → List F)
  | .dense a w b => some (fun x => Spec.layer ops { act := a, w := w, b := b } x)
  | .denseNoBias => none
  | .activation a => some (Spec.act ops a)
  | .reluLayer plain => if plain then some (Spec.act ops .relu) else none
  | .softmaxLayer lastAxis => if lastAxis then some (Spec.act ops .softmax) else none
  | .dropout => some id
  | .unsupported => none

/-- What a Keras model computes: its layers applied in order. -/
def kerasModel : List (KLayer F) → Option (List F → List F)
  | [] => some id
  | l :: ls => (kerasMeaning ops l).bind (fun f => (kerasModel ls).map (fun g => g ∘ f))

/-- **C42 is false**: a Dense layer with its own activation followed by an activation layer loses the first activation. -/
theorem C42_refuted : ∃ (ls : List (KLayer ℚ)) (ds : List (Dense ℚ)) (f : List ℚ → List ℚ) (x : List ℚ),
    convertKeras ls = some ds ∧ kerasModel ratOps ls = some f ∧ Spec.network ratOps ds x ≠ f x :=
  ⟨[.dense .relu [[1]] [0], .activation .identity], _, _, [-1], rfl, rfl, by decide +kernel⟩

/-- Activation layers directly follow (dropout aside) a Dense layer without own activation, at most one each. The flag tells whether an activation may come now. -/
def Mergeable : Bool → List (KLayer F) → Prop
  | _, [] => True
  | _, .dense a _ _ :: ls => Mergeable (decide (a = .identity)) ls
  | f, .dropout :: ls => Mergeable f ls
  | f, .activation _ :: ls => f = true ∧ Mergeable false ls
  | f, .reluLayer _ :: ls => f = true ∧ Mergeable false ls
  | f, .softmaxLayer _ :: ls => f = true ∧ Mergeable false ls
  | _, .denseNoBias :: _ => True
  | _, .unsupported :: _ => True

theorem setLastAct_append (a : Act) (ini : List (Dense F)) (d : Dense F) : setLastAct a (ini ++ [d]) = some (ini ++ [{ d with act := a }]) := by
  induction ini with
  | nil => rfl
  | cons e ini ih =>
    cases ini with
    | nil => simp [setLastAct]
    | cons e2 ini => simp only [List.cons_append, setLastAct] at ih ⊢; simp [ih]

theorem keras_agree (ls : List (KLayer F)) (flag : Bool) (hm : Mergeable flag ls) (acc : List (Dense F))
    (hflag : flag = true → ∃ ini d, acc = ini ++ [d] ∧ d.act = .identity) :
    ∀ ds, ls.foldlM kerasStep acc = some ds → ∃ f, kerasModel ops ls = some f ∧ ∀ x, Spec.network ops ds x = f (Spec.network ops acc x) := by
  have setAct : ∀ (ls : List (KLayer F)) (a : Act), flag = true → (∀ (acc : List (Dense F)), (false = true → ∃ ini d, acc = ini ++ [d] ∧ d.act = .identity) →
      ∀ ds, ls.foldlM kerasStep acc = some ds → ∃ f, kerasModel ops ls = some f ∧ ∀ x, Spec.network ops ds x = f (Spec.network ops acc x)) →
      ∀ acc2 ds, setLastAct a acc = some acc2 → ls.foldlM kerasStep acc2 = some ds →
      ∃ f, kerasModel ops ls = some f ∧ ∀ x, Spec.network ops ds x = f (Spec.act ops a (Spec.network ops acc x)) := by
    intro ls a hf ih acc2 ds hset hds
    obtain ⟨ini, d, rfl, hd⟩ := hflag hf
    rw [setLastAct_append] at hset
    cases hset
    obtain ⟨f, hf, heq⟩ := ih _ (by simp) ds hds
    refine ⟨f, hf, fun x => ?_⟩
    rw [heq]
    congr 1
    simp [Spec.network, List.foldl_append, Spec.layer, hd, Spec.act]
    rfl
  induction ls generalizing flag acc with
  | nil => intro ds h; simp at h; subst h; exact ⟨id, rfl, fun x => rfl⟩
  | cons l ls ih =>
    intro ds h
    rw [List.foldlM_cons] at h
    obtain ⟨acc2, h1, h2⟩ := Option.bind_eq_some_iff.1 h
    cases l with
    | dense a w b =>
      simp only [kerasStep, Option.some.injEq] at h1
      subst h1
      have hfl : decide (a = Act.identity) = true → ∃ ini d, acc ++ [({ act := a, w := w, b := b } : Dense F)] = ini ++ [d] ∧ d.act = .identity :=
        fun ha => ⟨acc, _, rfl, by simpa using ha⟩
      obtain ⟨f, hf, heq⟩ := ih _ hm _ hfl (by
        intro ls' a' hf' ih' acc2' ds' hset hds
        obtain ⟨ini, d, he, hd⟩ := hfl hf'
        rw [he] at hset ⊢
        rw [setLastAct_append] at hset
        cases hset
        obtain ⟨f, hf, heq⟩ := ih' _ (by simp) ds' hds
        refine ⟨f, hf, fun x => ?_⟩
        rw [heq]
        congr 1
        simp [Spec.network, List.foldl_append, Spec.layer, hd, Spec.act]
        rfl) ds h2
      refine ⟨f ∘ fun x => Spec.layer ops { act := a, w := w, b := b } x, by simp [kerasModel, kerasMeaning, hf], fun x => ?_⟩
      rw [heq]
      simp [Spec.network, List.foldl_append]
    | denseNoBias => simp [kerasStep] at h1
    | unsupported => simp [kerasStep] at h1
    | dropout =>
      simp only [kerasStep, Option.some.injEq] at h1
      subst h1
      obtain ⟨f, hf, heq⟩ := ih flag hm acc hflag setAct ds h2
      exact ⟨f ∘ id, by simp [kerasModel, kerasMeaning, hf], heq⟩
    | activation a =>
      obtain ⟨hf, hm⟩ := hm
      simp only [kerasStep] at h1
      obtain ⟨f, hf, heq⟩ := setAct ls a hf (fun acc hfl ds hds => ih false hm acc hfl (by simp) ds hds) acc2 ds h1 h2
      exact ⟨f ∘ Spec.act ops a, by simp [kerasModel, kerasMeaning, hf], heq⟩
    | reluLayer p =>
      obtain ⟨hf, hm⟩ := hm
      cases p with
      | false => simp [kerasStep] at h1
      | true =>
        simp only [kerasStep, if_true] at h1
        obtain ⟨f, hf, heq⟩ := setAct ls .relu hf (fun acc hfl ds hds => ih false hm acc hfl (by simp) ds hds) acc2 ds h1 h2
        exact ⟨f ∘ Spec.act ops .relu, by simp [kerasModel, kerasMeaning, hf], heq⟩
    | softmaxLayer p =>
      obtain ⟨hf, hm⟩ := hm
      cases p with
      | false => simp [kerasStep] at h1
      | true =>
        simp only [kerasStep, if_true] at h1
        obtain ⟨f, hf, heq⟩ := setAct ls .softmax hf (fun acc hfl ds hds => ih false hm acc hfl (by simp) ds hds) acc2 ds h1 h2
        exact ⟨f ∘ Spec.act ops .softmax, by simp [kerasModel, kerasMeaning, hf], heq⟩

/-- **C42, for models where every activation layer follows a Dense layer without own activation** (what `C42_refuted` violates): the converted network computes the model's function. -/
theorem C42_keras_conversion_partial (ls : List (KLayer F)) (hm : Mergeable false ls) (ds : List (Dense F)) (h : convertKeras ls = some ds) :
    ∃ f, kerasModel ops ls = some f ∧ ∀ x, Spec.network ops ds x = f x := by
  obtain ⟨f, hf, heq⟩ := keras_agree ops ls false hm [] (by simp) ds h
  exact ⟨f, hf, fun x => by simpa [Spec.network] using heq x⟩

/-- **C42.** An activation layer before any Dense layer, a Dense layer without bias or an unsupported layer is refused. -/
theorem C42_refused (ls ls' : List (KLayer F)) (l : KLayer F) (acc : List (Dense F)) (h : convertKeras ls = some acc)
    (hl : kerasMeaning ops l = none ∨ (acc = [] ∧ l ≠ .dropout ∧ ∀ a w b, l ≠ .dense a w b)) : convertKeras (ls ++ l :: ls') = none := by
  unfold convertKeras at h ⊢
  rw [List.foldlM_append, h]
  simp only [List.foldlM_cons, bind, Option.bind_some]
  have : kerasStep acc l = none := by
    rcases hl with hl | ⟨rfl, h1, h2⟩
    · cases l <;> simp_all [kerasMeaning, kerasStep]
    · cases l <;> simp_all [kerasStep, setLastAct]
  rw [this]; rfl

example : Mergeable false [KLayer.dense .relu [[(1 : ℚ), 2]] [0, 0], .dropout, .dense .identity [[1], [1]] [0], .activation .logistic] ∧
    (convertKeras [KLayer.dense .relu [[(1 : ℚ), 2]] [0, 0], .dropout, .dense .identity [[1], [1]] [0], .activation .logistic]).map (List.map (·.act)) = some [.relu, .logistic] := by
  refine ⟨by simp [Mergeable], by decide⟩

/-! ### C68: scikit-learn MLP conversion -/

/-- scikit-learn's forward pass: for layer `i`, `x @ coefs[i] + intercepts[i]`, then the hidden activation unless it is the last layer, which gets the output activation. -/
def sklearnForward (act outAct : Act) : List (List (List F) × List F) → List F → List F
  | [], x => x
  | [(w, b)], x => Spec.layer ops { act := outAct, w := w, b := b } x
  | (w, b) :: ls, x => sklearnForward act outAct ls (Spec.layer ops { act := act, w := w, b := b } x)

/-- **C68.** For every fitted multi-layer perceptron with a hidden layer, conversion succeeds and the network computes scikit-learn's forward pass. -/
theorem C68_mlp_conversion (nLayers : Nat) (act outAct : Act) (coefs : List (List (List F))) (intercepts : List (List F))
    (hlen : intercepts.length = coefs.length) (hn : nLayers = coefs.length + 1) (hh : 2 ≤ coefs.length) (x : List F) :
    ∃ ds, convertMlp nLayers act outAct coefs intercepts = some ds ∧ ds.length = coefs.length ∧
      Spec.network ops ds x = sklearnForward ops act outAct (coefs.zip intercepts) x := by
  refine ⟨_, by rw [convertMlp, if_neg (by omega)], ?_, ?_⟩
  · simp; omega
  · have hpos : 1 ≤ coefs.length := by omega
    clear hn hh
    induction coefs generalizing intercepts x with
    | nil => simp at hpos
    | cons w coefs ih =>
      match intercepts, hlen with
      | b :: bs, hlen =>
        cases coefs with
        | nil =>
          simp at hlen; subst hlen
          simp [Spec.network, sklearnForward]
        | cons w2 coefs =>
          match bs, hlen with
          | b2 :: bs, hlen =>
            have := ih (b2 :: bs) (by simpa using hlen) (Spec.layer ops { act := act, w := w, b := b } x) (by simp)
            simp only [List.length_cons, Nat.add_sub_cancel, List.replicate_succ, List.cons_append, List.zip_cons_cons, List.map_cons, Spec.network, List.foldl_cons, sklearnForward] at this ⊢
            exact this

/-- **C68.** Perceptrons without a hidden layer are refused. -/
theorem C68_no_hidden_refused (nLayers : Nat) (act outAct : Act) (coefs : List (List (List F))) (intercepts : List (List F)) :
    convertMlp nLayers act outAct coefs intercepts = none ↔ nLayers < 3 := by
  unfold convertMlp; split <;> simp_all

example : (convertMlp 3 .relu .softmax [[[(1 : ℚ), 2]], [[1], [1]]] [[0, 0], [0]]).map (List.map (·.act)) = some [.relu, .softmax] := by decide

end Emlearn.Net
