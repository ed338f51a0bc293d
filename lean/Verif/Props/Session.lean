/- C111: histories of conversions and predictions. -/
import Verif.Harness.Session
import Verif.Props.Harness
namespace Emlearn.Session
open Emlearn.Harness

section
variable {E : Type} (cc : String → String → Option E) (run : E → List Char → Option (List Char))

/-! ### Specification: no files, no working directory -/

/-- The program that predicts with the model of a request. -/
def program (r : Request) : Option E := cc (mainText r.family.name r.call none) r.code

/-- The program that computes its probabilities. -/
def probaProgram (r : Request) : Option E := r.probaCall.bind fun pc => cc (mainText (r.family.name ++ "_proba") pc (some r.nClasses)) r.code

/-- Everything the model needs compiles. -/
def Ready (r : Request) : Prop := (program cc r).isSome ∧ (r.probaCall.isSome → (probaProgram cc r).isSome)

instance (r : Request) : Decidable (Ready cc r) := by unfold Ready; infer_instance

/-- The answer of a program to `predict(X)` of a model. -/
def answer (isInt : Bool) (p : Option E) (X : List (List ℚ)) : Option (List ℚ) := p.bind fun e => (run e (serialize X)).bind (readPredictions isInt X)

/-- The answer of a program to `predict_proba(X)` of a model with `n` classes. -/
def probaAnswer (n : Nat) (p : Option E) (X : List (List ℚ)) : Option (Nat → Nat → Option ℚ) := p.bind fun e => (run e (serialize X)).bind (readProba n X)

/-- The models the user holds after a history, in order. -/
def created (ops : List Op) : List Request :=
  ops.filterMap fun
    | .convert r => if r.family = .trees ∨ Ready cc r then some r else none
    | _ => none

/-- The working directory after a history. -/
def cwdAfter (cwd : String) : List Op → String
  | [] => cwd
  | .chdir d :: ops => cwdAfter d ops
  | _ :: ops => cwdAfter cwd ops

/-- The conversions of a history that compiled a prediction program, with the working directory at the time. -/
def builds (cwd : String) : List Op → List (String × Request)
  | [] => []
  | .chdir d :: ops => builds d ops
  | .convert r :: ops => if r.family ≠ .trees ∧ (program cc r).isSome then (cwd, r) :: builds cwd ops else builds cwd ops
  | _ :: ops => builds cwd ops

/-- The last of them for a family and a directory. -/
def lastBuilt (f : Family) (dir : String) (bs : List (String × Request)) : Option Request :=
  ((bs.filter fun b => b.1 = dir ∧ b.2.family = f).getLast?).map (·.2)

/-- The last of them that also compiled a program for probabilities. -/
def lastProba (f : Family) (dir : String) (bs : List (String × Request)) : Option Request :=
  ((bs.filter fun b => b.1 = dir ∧ b.2.family = f ∧ (probaProgram cc b.2).isSome).getLast?).map (·.2)

/-! ### The files -/

theorem name_ne_h (f g : Family) : f.name ≠ g.name ++ ".h" := by cases f <;> cases g <;> decide
theorem name_ne_c (f g : Family) : f.name ≠ g.name ++ ".c" := by cases f <;> cases g <;> decide
theorem name_ne_proba (f g : Family) : f.name ≠ g.name ++ "_proba" := by cases f <;> cases g <;> decide
theorem name_ne_proba_h (f g : Family) : f.name ≠ g.name ++ "_proba" ++ ".h" := by cases f <;> cases g <;> decide
theorem name_ne_proba_c (f g : Family) : f.name ≠ g.name ++ "_proba" ++ ".c" := by cases f <;> cases g <;> decide
theorem proba_ne_h (f g : Family) : f.name ++ "_proba" ≠ g.name ++ ".h" := by cases f <;> cases g <;> decide
theorem proba_ne_c (f g : Family) : f.name ++ "_proba" ≠ g.name ++ ".c" := by cases f <;> cases g <;> decide
theorem proba_ne_proba_h (f g : Family) : f.name ++ "_proba" ≠ g.name ++ "_proba" ++ ".h" := by cases f <;> cases g <;> decide
theorem proba_ne_proba_c (f g : Family) : f.name ++ "_proba" ≠ g.name ++ "_proba" ++ ".c" := by cases f <;> cases g <;> decide
theorem name_inj (f g : Family) : f.name = g.name ↔ f = g := by cases f <;> cases g <;> decide
theorem proba_inj (f g : Family) : f.name ++ "_proba" = g.name ++ "_proba" ↔ f = g := by cases f <;> cases g <;> decide

theorem build_ok (d : Disk E) (cwd name code func : String) (n : Option Nat) : (build cc d cwd name code func n).2 = (cc (mainText name func n) code).isSome := by
  unfold build
  simp only []
  cases cc (mainText name func n) code <;> rfl

theorem build_disk (d : Disk E) (cwd name code func : String) (n : Option Nat) (dir file : String) (h1 : file ≠ name ++ ".h") (h2 : file ≠ name ++ ".c") :
    (build cc d cwd name code func n).1 (dir, file) =
      if dir = cwd ∧ file = name then (match cc (mainText name func n) code with | some e => some (.exe e) | none => d (dir, file)) else d (dir, file) := by
  unfold build
  simp only []
  cases cc (mainText name func n) code with
  | none => simp [Disk.write, h1, h2]
  | some e =>
    by_cases h : dir = cwd ∧ file = name
    · simp [Disk.write, h.1, h.2]
    · rw [if_neg h]
      simp only [Disk.write]
      rw [if_neg (by simpa using h), if_neg (by simp [h2]), if_neg (by simp [h1])]

theorem construct_obj (d : Disk E) (cwd : String) (r : Request) :
    (construct cc d cwd r).2 = if Ready cc r then some ⟨r.family.name, r.probaCall.map fun _ => r.family.name ++ "_proba", r.nClasses, r.isInt⟩ else none := by
  have h1 := build_ok cc d cwd r.family.name r.code r.call none
  unfold construct
  simp only []
  rcases hb : build cc d cwd r.family.name r.code r.call none with ⟨d1, b⟩
  rw [hb] at h1
  cases b with
  | false =>
    simp only [] at h1 ⊢
    rw [if_neg]
    intro hr
    rw [Ready, program, ← h1] at hr
    simp at hr
  | true =>
    simp only [] at h1 ⊢
    cases hp : r.probaCall with
    | none =>
      simp only [Option.map_none]
      rw [if_pos]
      exact ⟨h1.symm, by simp [hp]⟩
    | some pc =>
      simp only [Option.map_some]
      have h2 := build_ok cc d1 cwd (r.family.name ++ "_proba") r.code pc (some r.nClasses)
      rcases hb2 : build cc d1 cwd (r.family.name ++ "_proba") r.code pc (some r.nClasses) with ⟨d2, b2⟩
      rw [hb2] at h2
      cases b2 with
      | false =>
        simp only [] at h2 ⊢
        rw [if_neg]
        intro hr
        have := hr.2 (by simp [hp])
        rw [probaProgram, hp, Option.bind_some, ← h2] at this
        cases this
      | true =>
        simp only [] at h2 ⊢
        rw [if_pos]
        exact ⟨h1.symm, fun _ => by rw [probaProgram, hp, Option.bind_some, ← h2]⟩

theorem construct_bin (d : Disk E) (cwd : String) (r : Request) (f : Family) (dir : String) :
    (construct cc d cwd r).1 (dir, f.name) = if dir = cwd ∧ f = r.family then (match program cc r with | some e => some (.exe e) | none => d (dir, f.name)) else d (dir, f.name) := by
  have h1 := build_disk cc d cwd r.family.name r.code r.call none dir f.name (name_ne_h _ _) (name_ne_c _ _)
  simp only [name_inj] at h1
  unfold program
  rw [← h1]
  unfold construct
  simp only []
  rcases hb : build cc d cwd r.family.name r.code r.call none with ⟨d1, b⟩
  cases b with
  | false => rfl
  | true =>
    simp only []
    cases hp : r.probaCall with
    | none => rfl
    | some pc =>
      simp only []
      have h2 := build_disk cc d1 cwd (r.family.name ++ "_proba") r.code pc (some r.nClasses) dir f.name (name_ne_proba_h _ _) (name_ne_proba_c _ _)
      rw [if_neg (fun h => name_ne_proba _ _ h.2)] at h2
      rw [← h2]
      rcases build cc d1 cwd (r.family.name ++ "_proba") r.code pc (some r.nClasses) with ⟨d2, b2⟩
      cases b2 <;> rfl

theorem construct_proba (d : Disk E) (cwd : String) (r : Request) (f : Family) (dir : String) :
    (construct cc d cwd r).1 (dir, f.name ++ "_proba") =
      if dir = cwd ∧ f = r.family ∧ (program cc r).isSome then (match probaProgram cc r with | some e => some (.exe e) | none => d (dir, f.name ++ "_proba")) else d (dir, f.name ++ "_proba") := by
  have h0 := build_ok cc d cwd r.family.name r.code r.call none
  have h1 := build_disk cc d cwd r.family.name r.code r.call none dir (f.name ++ "_proba") (proba_ne_h _ _) (proba_ne_c _ _)
  rw [if_neg (fun h => name_ne_proba _ _ h.2.symm)] at h1
  unfold program
  rw [← h0]
  unfold construct
  simp only []
  rcases hb : build cc d cwd r.family.name r.code r.call none with ⟨d1, b⟩
  rw [hb] at h1
  simp only [] at h1
  rw [← h1]
  cases b with
  | false => simp
  | true =>
    simp only [and_true]
    cases hp : r.probaCall with
    | none => simp [probaProgram, hp]
    | some pc =>
      simp only []
      have h2 := build_disk cc d1 cwd (r.family.name ++ "_proba") r.code pc (some r.nClasses) dir (f.name ++ "_proba") (proba_ne_proba_h _ _) (proba_ne_proba_c _ _)
      simp only [proba_inj] at h2
      unfold probaProgram
      rw [hp, Option.bind_some, ← h2]
      rcases build cc d1 cwd (r.family.name ++ "_proba") r.code pc (some r.nClasses) with ⟨d2, b2⟩
      cases b2 <;> rfl

/-! ### The invariant of a history -/

theorem cwdAfter_snoc (cwd : String) (ops : List Op) (op : Op) : cwdAfter cwd (ops ++ [op]) = match op with | .chdir d => d | _ => cwdAfter cwd ops := by
  induction ops generalizing cwd with
  | nil => cases op <;> rfl
  | cons o ops ih => cases o <;> exact ih _

theorem builds_snoc (cwd : String) (ops : List Op) (op : Op) :
    builds cc cwd (ops ++ [op]) = builds cc cwd ops ++ match op with | .convert r => (if r.family ≠ .trees ∧ (program cc r).isSome then [(cwdAfter cwd ops, r)] else []) | _ => [] := by
  induction ops generalizing cwd with
  | nil => cases op <;> simp [builds, cwdAfter]
  | cons o ops ih =>
    cases o with
    | convert r =>
      simp only [List.cons_append, builds, cwdAfter]
      rw [ih]
      split <;> rfl
    | predict i X => exact ih _
    | predictProba i X => exact ih _
    | chdir d => exact ih _

theorem created_snoc (ops : List Op) (op : Op) :
    created cc (ops ++ [op]) = created cc ops ++ match op with | .convert r => (if r.family = .trees ∨ Ready cc r then [r] else []) | _ => [] := by
  unfold created
  rw [List.filterMap_append]
  cases op with
  | convert r => by_cases h : r.family = .trees ∨ Ready cc r <;> simp [h]
  | _ => rfl

/-- The wrapper object made from a request. -/
def wrapperOf (r : Request) : Wrapper :=
  if r.family = .trees then .tree r else .compiled ⟨r.family.name, r.probaCall.map fun _ => r.family.name ++ "_proba", r.nClasses, r.isInt⟩

theorem lastBuilt_snoc (f : Family) (dir : String) (bs : List (String × Request)) (b : String × Request) :
    lastBuilt f dir (bs ++ [b]) = if b.1 = dir ∧ b.2.family = f then some b.2 else lastBuilt f dir bs := by
  unfold lastBuilt
  rw [List.filter_append]
  by_cases h : b.1 = dir ∧ b.2.family = f
  · simp [h]
  · rw [if_neg h, List.filter_cons_of_neg (by simpa using h)]
    simp

theorem lastProba_snoc (f : Family) (dir : String) (bs : List (String × Request)) (b : String × Request) :
    lastProba cc f dir (bs ++ [b]) = if b.1 = dir ∧ b.2.family = f ∧ (probaProgram cc b.2).isSome then some b.2 else lastProba cc f dir bs := by
  unfold lastProba
  rw [List.filter_append]
  by_cases h : b.1 = dir ∧ b.2.family = f ∧ (probaProgram cc b.2).isSome
  · simp [h]
  · rw [if_neg h, List.filter_cons_of_neg (by simpa using h)]
    simp

/-- What holds of the session after a history. -/
structure Inv (cwd : String) (ops : List Op) (st : State E) : Prop where
  dir : st.cwd = cwdAfter cwd ops
  objs : st.objs = (created cc ops).map wrapperOf
  trees : ∀ w r, w ∈ st.objs → w = .tree r → r.family = .trees
  bin : ∀ (f : Family) (dir : String), f ≠ .trees → st.disk (dir, f.name) = ((lastBuilt f dir (builds cc cwd ops)).bind (program cc)).map .exe
  proba : ∀ (f : Family) (dir : String), f ≠ .trees → st.disk (dir, f.name ++ "_proba") = ((lastProba cc f dir (builds cc cwd ops)).bind (probaProgram cc)).map .exe

theorem Inv.build {cwd : String} {ops : List Op} {st : State E} (h : Inv cc cwd ops st) (r : Request) (hr : r.family = .trees) :
    ∀ (f : Family) (dir : String), f ≠ .trees → (construct cc st.disk st.cwd r).1 (dir, f.name) = st.disk (dir, f.name) ∧ (construct cc st.disk st.cwd r).1 (dir, f.name ++ "_proba") = st.disk (dir, f.name ++ "_proba") := by
  intro f dir hf
  rw [construct_bin, construct_proba, if_neg, if_neg]
  · exact ⟨rfl, rfl⟩
  · rintro ⟨-, e, -⟩; exact hf (e.trans hr)
  · rintro ⟨-, e⟩; exact hf (e.trans hr)

theorem Inv.same {cwd : String} {ops : List Op} {st st' : State E} (h : Inv cc cwd ops st) (op : Op) (hop : (∃ i X, op = .predict i X) ∨ ∃ i X, op = .predictProba i X)
    (h1 : st'.cwd = st.cwd) (h2 : st'.objs = st.objs) (h3 : ∀ (f : Family) (dir : String), f ≠ .trees → st'.disk (dir, f.name) = st.disk (dir, f.name) ∧ st'.disk (dir, f.name ++ "_proba") = st.disk (dir, f.name ++ "_proba")) :
    Inv cc cwd (ops ++ [op]) st' := by
  have e1 : cwdAfter cwd (ops ++ [op]) = cwdAfter cwd ops := by rw [cwdAfter_snoc]; rcases hop with ⟨i, X, rfl⟩ | ⟨i, X, rfl⟩ <;> rfl
  have e2 : builds cc cwd (ops ++ [op]) = builds cc cwd ops := by rw [builds_snoc]; rcases hop with ⟨i, X, rfl⟩ | ⟨i, X, rfl⟩ <;> simp
  have e3 : created cc (ops ++ [op]) = created cc ops := by rw [created_snoc]; rcases hop with ⟨i, X, rfl⟩ | ⟨i, X, rfl⟩ <;> simp
  constructor
  · rw [h1, h.dir, e1]
  · rw [h2, h.objs, e3]
  · rw [h2]; exact h.trees
  · intro f dir hf; rw [(h3 f dir hf).1, h.bin f dir hf, e2]
  · intro f dir hf; rw [(h3 f dir hf).2, h.proba f dir hf, e2]

theorem Inv.predict {cwd : String} {ops : List Op} {st : State E} (h : Inv cc cwd ops st) (i : Nat) (X : List (List ℚ)) : Inv cc cwd (ops ++ [.predict i X]) (predictOp cc run st i X).1 := by
  refine h.same cc (.predict i X) (Or.inl ⟨i, X, rfl⟩) ?_ ?_ ?_
  all_goals
    unfold predictOp
    cases hi : st.objs[i]? with
    | none => simp
    | some w =>
      cases w with
      | compiled c => simp
      | tree r =>
        simp only []
        have ht := h.trees _ r (List.mem_of_getElem? hi) rfl
        have hb := h.build cc r ht
        rcases hc : construct cc st.disk st.cwd r with ⟨d, o⟩
        rw [hc] at hb
        cases o <;> first | rfl | exact hb

theorem Inv.probas {cwd : String} {ops : List Op} {st : State E} (h : Inv cc cwd ops st) (i : Nat) (X : List (List ℚ)) : Inv cc cwd (ops ++ [.predictProba i X]) (probaOp cc run st i X).1 := by
  refine h.same cc (.predictProba i X) (Or.inr ⟨i, X, rfl⟩) ?_ ?_ ?_
  all_goals
    unfold probaOp
    cases hi : st.objs[i]? with
    | none => simp
    | some w =>
      cases w with
      | compiled c => simp
      | tree r =>
        simp only []
        have ht := h.trees _ r (List.mem_of_getElem? hi) rfl
        have hb := h.build cc r ht
        rcases hc : construct cc st.disk st.cwd r with ⟨d, o⟩
        rw [hc] at hb
        cases o <;> first | rfl | exact hb

theorem Inv.convert {cwd : String} {ops : List Op} {st : State E} (h : Inv cc cwd ops st) (r : Request) : Inv cc cwd (ops ++ [.convert r]) (convertOp cc st r) := by
  have e1 : cwdAfter cwd (ops ++ [.convert r]) = cwdAfter cwd ops := by rw [cwdAfter_snoc]
  unfold convertOp
  by_cases ht : r.family = .trees
  · rw [if_pos ht]
    have e2 : builds cc cwd (ops ++ [.convert r]) = builds cc cwd ops := by rw [builds_snoc]; simp [ht]
    constructor
    · rw [e1]; exact h.dir
    · show st.objs ++ [.tree r] = _
      rw [created_snoc, h.objs]
      simp [ht, wrapperOf]
    · intro w r' hw hwr
      rcases List.mem_append.1 hw with hw | hw
      · exact h.trees w r' hw hwr
      · rw [List.mem_singleton.1 hw] at hwr
        cases hwr
        exact ht
    · rw [e2]; exact h.bin
    · rw [e2]; exact h.proba
  · rw [if_neg ht]
    have ho := construct_obj cc st.disk st.cwd r
    have hb := construct_bin cc st.disk st.cwd r
    have hp := construct_proba cc st.disk st.cwd r
    have hnew : ∀ d : Disk E, (∀ (f : Family) (dir : String), d (dir, f.name) = (construct cc st.disk st.cwd r).1 (dir, f.name)) → (∀ (f : Family) (dir : String), d (dir, f.name ++ "_proba") = (construct cc st.disk st.cwd r).1 (dir, f.name ++ "_proba")) →
        (∀ (f : Family) (dir : String), f ≠ .trees → d (dir, f.name) = ((lastBuilt f dir (builds cc cwd (ops ++ [.convert r]))).bind (program cc)).map .exe) ∧
        (∀ (f : Family) (dir : String), f ≠ .trees → d (dir, f.name ++ "_proba") = ((lastProba cc f dir (builds cc cwd (ops ++ [.convert r]))).bind (probaProgram cc)).map .exe) := by
      intro d hd1 hd2
      constructor
      · intro f dir hf
        rw [hd1, hb, builds_snoc, h.dir, h.bin f dir hf]
        simp only []
        cases hpr : program cc r with
        | none => simp [hpr]
        | some e =>
          rw [if_pos (⟨ht, by simp⟩ : r.family ≠ .trees ∧ (some e).isSome = true), lastBuilt_snoc]
          by_cases hd : dir = cwdAfter cwd ops ∧ f = r.family
          · rw [if_pos hd, if_pos ⟨hd.1.symm, hd.2.symm⟩]; simp [hpr]
          · rw [if_neg hd, if_neg (fun h => hd ⟨h.1.symm, h.2.symm⟩)]
      · intro f dir hf
        rw [hd2, hp, builds_snoc, h.dir, h.proba f dir hf]
        simp only []
        cases hpr : program cc r with
        | none => simp [hpr]
        | some e =>
          rw [if_pos (⟨ht, by simp⟩ : r.family ≠ .trees ∧ (some e).isSome = true), lastProba_snoc]
          cases hpp : probaProgram cc r with
          | none => simp [hpp]
          | some e' =>
            by_cases hd : dir = cwdAfter cwd ops ∧ f = r.family
            · rw [if_pos ⟨hd.1, hd.2, rfl⟩, if_pos ⟨hd.1.symm, hd.2.symm, by simp [hpp]⟩]; simp [hpp]
            · rw [if_neg (fun h => hd ⟨h.1, h.2.1⟩), if_neg (fun h => hd ⟨h.1.symm, h.2.1.symm⟩)]
    rcases hc : construct cc st.disk st.cwd r with ⟨d, o⟩
    rw [hc] at ho
    obtain ⟨n1, n2⟩ := hnew d (by simp [hc]) (by simp [hc])
    by_cases hr : Ready cc r
    · rw [if_pos hr] at ho
      simp only [] at ho
      subst ho
      constructor
      · rw [e1]; exact h.dir
      · show st.objs ++ [_] = _
        rw [created_snoc, h.objs]
        simp [ht, hr, wrapperOf]
      · intro w r' hw hwr
        rcases List.mem_append.1 hw with hw | hw
        · exact h.trees w r' hw hwr
        · rw [List.mem_singleton.1 hw] at hwr
          cases hwr
      · exact n1
      · exact n2
    · rw [if_neg hr] at ho
      simp only [] at ho
      subst ho
      constructor
      · rw [e1]; exact h.dir
      · show st.objs = _
        rw [created_snoc, h.objs]
        simp [ht, hr]
      · exact h.trees
      · exact n1
      · exact n2

theorem session_snoc (cwd : String) (ops : List Op) (op : Op) : session cc run cwd (ops ++ [op]) = step cc run (session cc run cwd ops) op := by
  unfold session
  rw [List.foldl_append]
  rfl

theorem session_inv (cwd : String) (ops : List Op) : Inv cc cwd ops (session cc run cwd ops) := by
  induction ops using List.reverseRecOn with
  | nil => exact ⟨rfl, rfl, (by intro w r hw; cases hw), fun _ _ _ => rfl, fun _ _ _ => rfl⟩
  | append_singleton ops op ih =>
    rw [session_snoc]
    cases op with
    | convert r => exact ih.convert cc r
    | predict i X => exact ih.predict cc run i X
    | predictProba i X => exact ih.probas cc run i X
    | chdir dir =>
      have e2 : builds cc cwd (ops ++ [.chdir dir]) = builds cc cwd ops := by rw [builds_snoc]; simp
      have e3 : created cc (ops ++ [.chdir dir]) = created cc ops := by rw [created_snoc]; simp
      constructor
      · rw [cwdAfter_snoc]; rfl
      · rw [e3]; exact ih.objs
      · exact ih.trees
      · rw [e2]; exact ih.bin
      · rw [e2]; exact ih.proba

theorem session_obj (cwd : String) (ops : List Op) (i : Nat) (r : Request) (hi : (created cc ops)[i]? = some r) : (session cc run cwd ops).objs[i]? = some (wrapperOf r) := by
  rw [(session_inv cc run cwd ops).objs, List.getElem?_map, hi]
  rfl

theorem construct_after (d : Disk E) (cwd : String) (r : Request) (hr : Ready cc r) (X : List (List ℚ)) :
    ∃ d' c, construct cc d cwd r = (d', some c) ∧ c.predict run d' cwd X = answer run r.isInt (program cc r) X ∧
      c.predictProba run d' cwd X = (if r.probaCall.isSome then probaAnswer run r.nClasses (probaProgram cc r) X else none) := by
  have ho := construct_obj cc d cwd r
  have hb := construct_bin cc d cwd r r.family cwd
  have hp := construct_proba cc d cwd r r.family cwd
  rw [if_pos hr] at ho
  rcases hc : construct cc d cwd r with ⟨d', o⟩
  rw [hc] at ho hb hp
  simp only [] at ho hb hp
  subst ho
  obtain ⟨e, he⟩ := Option.isSome_iff_exists.1 hr.1
  refine ⟨d', _, rfl, ?_, ?_⟩
  · simp only [Compiled.predict, runFile, hb, he, answer, and_self, if_true, Option.bind_some]
  · unfold Compiled.predictProba
    cases hpc : r.probaCall with
    | none => rfl
    | some pc =>
      obtain ⟨e', he'⟩ := Option.isSome_iff_exists.1 (hr.2 (by simp [hpc]))
      simp [hr.1] at hp
      simp [runFile, hp, he', probaAnswer]

/-! ### C111 -/

/-- C111: after any history, `predict` of a tree model answers with the program compiled from that very model (and raises if that does not compile). -/
theorem C111_tree_predict (cwd : String) (ops : List Op) (i : Nat) (r : Request) (hi : (created cc ops)[i]? = some r) (ht : r.family = .trees) (X : List (List ℚ)) :
    (predictOp cc run (session cc run cwd ops) i X).2 = if Ready cc r then answer run r.isInt (program cc r) X else none := by
  unfold predictOp
  rw [session_obj cc run cwd ops i r hi, wrapperOf, if_pos ht]
  simp only []
  by_cases hr : Ready cc r
  · obtain ⟨d', c, h1, h2, -⟩ := construct_after cc run (session cc run cwd ops).disk (session cc run cwd ops).cwd r hr X
    rw [h1, if_pos hr]
    exact h2
  · have ho := construct_obj cc (session cc run cwd ops).disk (session cc run cwd ops).cwd r
    rw [if_neg hr] at ho ⊢
    rcases hc : construct cc (session cc run cwd ops).disk (session cc run cwd ops).cwd r with ⟨d', o⟩
    rw [hc] at ho
    simp only [] at ho
    subst ho
    rfl

/-- C111: the same for `predict_proba`. -/
theorem C111_tree_proba (cwd : String) (ops : List Op) (i : Nat) (r : Request) (hi : (created cc ops)[i]? = some r) (ht : r.family = .trees) (X : List (List ℚ)) :
    (probaOp cc run (session cc run cwd ops) i X).2 = if Ready cc r ∧ r.probaCall.isSome then probaAnswer run r.nClasses (probaProgram cc r) X else none := by
  unfold probaOp
  rw [session_obj cc run cwd ops i r hi, wrapperOf, if_pos ht]
  simp only []
  by_cases hr : Ready cc r
  · obtain ⟨d', c, h1, -, h2⟩ := construct_after cc run (session cc run cwd ops).disk (session cc run cwd ops).cwd r hr X
    rw [h1]
    simp only [hr, true_and]
    exact h2
  · have ho := construct_obj cc (session cc run cwd ops).disk (session cc run cwd ops).cwd r
    rw [if_neg hr] at ho
    rw [if_neg (fun h => hr h.1)]
    rcases hc : construct cc (session cc run cwd ops).disk (session cc run cwd ops).cwd r with ⟨d', o⟩
    rw [hc] at ho
    simp only [] at ho
    subst ho
    rfl

/-- C111: after any history, `predict` of a model of another family runs the program of the last model of that family converted in the present working directory, whichever object it is called on; it raises if there is none. -/
theorem C111_predict_last (cwd : String) (ops : List Op) (i : Nat) (r : Request) (hi : (created cc ops)[i]? = some r) (ht : r.family ≠ .trees) (X : List (List ℚ)) :
    (predictOp cc run (session cc run cwd ops) i X).2 = answer run r.isInt ((lastBuilt r.family (cwdAfter cwd ops) (builds cc cwd ops)).bind (program cc)) X := by
  unfold predictOp
  rw [session_obj cc run cwd ops i r hi, wrapperOf, if_neg ht]
  have h := session_inv cc run cwd ops
  show (runFile run (session cc run cwd ops).disk (session cc run cwd ops).cwd r.family.name X).bind (readPredictions r.isInt X) = _
  unfold runFile
  rw [h.bin r.family _ ht, h.dir]
  unfold answer
  cases (lastBuilt r.family (cwdAfter cwd ops) (builds cc cwd ops)).bind (program cc) <;> rfl

/-- C111: `predict_proba` runs the last program for probabilities of that family and directory, which need not belong to the model `predict` uses. -/
theorem C111_proba_last (cwd : String) (ops : List Op) (i : Nat) (r : Request) (hi : (created cc ops)[i]? = some r) (ht : r.family ≠ .trees) (X : List (List ℚ)) :
    (probaOp cc run (session cc run cwd ops) i X).2 =
      if r.probaCall.isSome then probaAnswer run r.nClasses ((lastProba cc r.family (cwdAfter cwd ops) (builds cc cwd ops)).bind (probaProgram cc)) X else none := by
  unfold probaOp
  rw [session_obj cc run cwd ops i r hi, wrapperOf, if_neg ht]
  have h := session_inv cc run cwd ops
  cases hp : r.probaCall with
  | none => rfl
  | some pc =>
    rw [if_pos (by rfl)]
    show (runFile run (session cc run cwd ops).disk (session cc run cwd ops).cwd (r.family.name ++ "_proba") X).bind (readProba r.nClasses X) = _
    unfold runFile
    rw [h.proba r.family _ ht, h.dir]
    unfold probaAnswer
    cases (lastProba cc r.family (cwdAfter cwd ops) (builds cc cwd ops)).bind (probaProgram cc) <;> rfl

theorem builds_append (cwd : String) (ops ops' : List Op) : builds cc cwd (ops ++ ops') = builds cc cwd ops ++ builds cc (cwdAfter cwd ops) ops' := by
  induction ops generalizing cwd with
  | nil => rfl
  | cons o ops ih =>
    cases o with
    | convert r =>
      simp only [List.cons_append, builds, cwdAfter]
      rw [ih]
      split <;> rfl
    | predict i X => exact ih _
    | predictProba i X => exact ih _
    | chdir d => exact ih _

theorem cwdAfter_append (cwd : String) (ops ops' : List Op) : cwdAfter cwd (ops ++ ops') = cwdAfter (cwdAfter cwd ops) ops' := by
  induction ops generalizing cwd with
  | nil => rfl
  | cons o ops ih => cases o <;> exact ih _

theorem builds_other (f : Family) (cwd : String) (ops : List Op) (h : ∀ r, Op.convert r ∈ ops → r.family ≠ f) : ∀ b ∈ builds cc cwd ops, b.2.family ≠ f := by
  induction ops generalizing cwd with
  | nil => intro b hb; cases hb
  | cons o ops ih =>
    have hrest : ∀ r, Op.convert r ∈ ops → r.family ≠ f := fun r hr => h r (by simp [hr])
    intro b hb
    cases o with
    | convert r =>
      rw [builds] at hb
      split at hb
      · rcases List.mem_cons.1 hb with rfl | hb
        · exact h r (by simp)
        · exact ih _ hrest b hb
      · exact ih _ hrest b hb
    | predict i X => exact ih _ hrest b hb
    | predictProba i X => exact ih _ hrest b hb
    | chdir d => exact ih _ hrest b hb

theorem lastBuilt_own (cwd : String) (pre post : List Op) (r : Request) (hr : Ready cc r) (ht : r.family ≠ .trees) (hcwd : cwdAfter cwd (pre ++ .convert r :: post) = cwdAfter cwd pre)
    (hpost : ∀ r', Op.convert r' ∈ post → r'.family ≠ r.family) :
    lastBuilt r.family (cwdAfter cwd (pre ++ .convert r :: post)) (builds cc cwd (pre ++ .convert r :: post)) = some r ∧
      (r.probaCall.isSome → lastProba cc r.family (cwdAfter cwd (pre ++ .convert r :: post)) (builds cc cwd (pre ++ .convert r :: post)) = some r) := by
  have hb := builds_other cc r.family (cwdAfter cwd pre) post hpost
  rw [hcwd, builds_append]
  have e : builds cc (cwdAfter cwd pre) (.convert r :: post) = (cwdAfter cwd pre, r) :: builds cc (cwdAfter cwd pre) post := by rw [builds, if_pos ⟨ht, hr.1⟩]
  rw [e]
  constructor
  · unfold lastBuilt
    rw [List.filter_append, List.filter_cons_of_pos (by simp), (List.filter_eq_nil_iff (l := builds cc (cwdAfter cwd pre) post)).2 (fun b hb' => by simp [hb b hb'])]
    simp
  · intro hp
    unfold lastProba
    rw [List.filter_append, List.filter_cons_of_pos (by simp [hr.2 hp]), (List.filter_eq_nil_iff (l := builds cc (cwdAfter cwd pre) post)).2 (fun b hb' => by simp [hb b hb'])]
    simp

/-- C111: a model of any family answers with its own programs as long as, since its conversion, no other model of the family was converted and the working directory is the same again; whatever else was converted and called. -/
theorem C111_own_until_next_partial (cwd : String) (pre post : List Op) (r : Request) (hr : Ready cc r) (hcwd : r.family ≠ .trees → cwdAfter cwd (pre ++ .convert r :: post) = cwdAfter cwd pre)
    (hpost : r.family ≠ .trees → ∀ r', Op.convert r' ∈ post → r'.family ≠ r.family) (X : List (List ℚ)) :
    (predictOp cc run (session cc run cwd (pre ++ .convert r :: post)) (created cc pre).length X).2 = answer run r.isInt (program cc r) X ∧
      (probaOp cc run (session cc run cwd (pre ++ .convert r :: post)) (created cc pre).length X).2 =
        if r.probaCall.isSome then probaAnswer run r.nClasses (probaProgram cc r) X else none := by
  have hi : (created cc (pre ++ .convert r :: post))[(created cc pre).length]? = some r := by
    unfold created
    rw [List.filterMap_append, List.getElem?_append_right (by simp)]
    simp [hr]
  by_cases ht : r.family = .trees
  · rw [C111_tree_predict cc run cwd _ _ r hi ht, C111_tree_proba cc run cwd _ _ r hi ht]
    simp [hr]
  · obtain ⟨h1, h2⟩ := lastBuilt_own cc cwd pre post r hr ht (hcwd ht) (hpost ht)
    rw [C111_predict_last cc run cwd _ _ r hi ht, C111_proba_last cc run cwd _ _ r hi ht, h1]
    refine ⟨rfl, ?_⟩
    by_cases hp : r.probaCall.isSome
    · rw [h2 hp]; rfl
    · simp [hp]

/-- C111 fails without that: convert two models of a family (not trees) and the first one answers with the second one's program, for every pair of models and all data. -/
theorem C111_own_refuted (cwd : String) (r r' : Request) (hr : Ready cc r) (hr' : Ready cc r') (ht : r.family ≠ .trees) (hf : r'.family = r.family) (X : List (List ℚ)) :
    (predictOp cc run (session cc run cwd [.convert r, .convert r']) 0 X).2 = answer run r.isInt (program cc r') X := by
  have hi : (created cc [.convert r, .convert r'])[0]? = some r := by simp [created, hr, hr']
  rw [C111_predict_last cc run cwd _ _ r hi ht]
  have e : lastBuilt r.family (cwdAfter cwd [.convert r, .convert r']) (builds cc cwd [.convert r, .convert r']) = some r' := by
    simp [builds, ht, hf, hr.1, hr'.1, lastBuilt, cwdAfter]
  rw [e]
  rfl

/-- C111: and in a directory where no model of the family was converted, it raises (the paths are relative). -/
theorem C111_chdir_refuted (cwd dir : String) (r : Request) (hr : Ready cc r) (ht : r.family ≠ .trees) (hd : dir ≠ cwd) (X : List (List ℚ)) :
    (predictOp cc run (session cc run cwd [.convert r, .chdir dir]) 0 X).2 = none := by
  have hi : (created cc [.convert r, .chdir dir])[0]? = some r := by simp [created, hr]
  rw [C111_predict_last cc run cwd _ _ r hi ht]
  have e : lastBuilt r.family (cwdAfter cwd [.convert r, .chdir dir]) (builds cc cwd [.convert r, .chdir dir]) = none := by
    simp [builds, ht, hr.1, lastBuilt, cwdAfter, hd.symm]
  rw [e]
  rfl

end

/-! ### A concrete session: the "compiler" accepts every program, and an executable prints its header for every row -/

/-- Two naive Bayes models (their code is the class they always predict) and a tree model. -/
def bayes0 : Request := ⟨.bayes, "0", "eml_bayes_predict(&mybayes_model, values, length)", none, 0, true⟩
def bayes1 : Request := { bayes0 with code := "1" }
def tree7 : Request := ⟨.trees, "7", "predict_wrapper(values, length)", some "predict_proba_wrapper(values, length, outputs, N_CLASSES)", 3, true⟩

/-- An executable that prints `row,<its code>` for one row. -/
def demoCc (_main header : String) : Option String := some header
def demoRun (e : String) (_stdin : List Char) : Option (List Char) := some ("0,".toList ++ e.toList ++ ".000000\n".toList)

example : Ready demoCc bayes0 ∧ Ready demoCc bayes1 ∧ Ready demoCc tree7 := by decide

example : answer demoRun true (program demoCc bayes0) [[1]] = some [0] ∧ answer demoRun true (program demoCc bayes1) [[1]] = some [1] := by decide +kernel

/-- `a = convert(m0); b = convert(m1); a.predict(X)` gives `m1`'s answer, not `m0`'s. -/
example : (predictOp demoCc demoRun (session demoCc demoRun "/home" [.convert bayes0, .convert bayes1]) 0 [[1]]).2 ≠ answer demoRun bayes0.isInt (program demoCc bayes0) [[1]] := by
  rw [C111_own_refuted demoCc demoRun "/home" bayes0 bayes1 (by decide) (by decide) (by decide) rfl]
  decide +kernel

/-- A tree converted and used in between changes nothing. -/
example : (predictOp demoCc demoRun (session demoCc demoRun "/home" [.convert bayes0, .convert tree7, .predict 1 [[1]], .chdir "/tmp", .predict 1 [[1]], .chdir "/home"]) 0 [[1]]).2 = some [0] := by
  have h := (C111_own_until_next_partial demoCc demoRun "/home" [] [.convert tree7, .predict 1 [[1]], .chdir "/tmp", .predict 1 [[1]], .chdir "/home"] bayes0 (by decide) (fun _ => rfl)
    (fun _ r hr => by simp at hr; subst hr; decide) [[1]]).1
  refine h.trans ?_
  decide +kernel

/-! ### The type of the answers -/

section
variable {E : Type} (run : E → List Char → Option (List Char))

/-- What a generated `main` prints for the values `vs` of the rows in order: `"%d,%f\n"` of the row number and the value. -/
def printed (vs : List ℚ) : List Char := vs.zipIdx.flatMap fun p => showNat p.2 ++ ',' :: showFixed 6 p.1 ++ ['\n']

theorem pyInt_spec (q : ℚ) : |(pyInt q : ℚ)| ≤ |q| ∧ |q| < |(pyInt q : ℚ)| + 1 ∧ 0 ≤ (pyInt q : ℚ) * q := by
  unfold pyInt
  split
  · rename_i h
    have h0 : (0 : ℚ) ≤ (⌊-q⌋ : ℤ) := by exact_mod_cast Int.floor_nonneg.2 (by linarith)
    have h1 := Int.floor_le (-q)
    have h2 := Int.lt_floor_add_one (-q)
    push_cast
    rw [abs_neg, abs_of_nonneg h0, abs_of_neg h]
    exact ⟨h1, h2, by nlinarith⟩
  · rename_i h
    push Not at h
    have h0 : (0 : ℚ) ≤ (⌊q⌋ : ℤ) := by exact_mod_cast Int.floor_nonneg.2 h
    rw [abs_of_nonneg h0, abs_of_nonneg h]
    exact ⟨Int.floor_le q, Int.lt_floor_add_one q, by positivity⟩

theorem mapOpt_printed (vs : List ℚ) (g : ℚ → ℚ) : mapOpt (fun l => (parsePrediction l).map g) (outputLines (printed vs)) = some (vs.map fun v => g (fixedValue 6 v)) := by
  have e : outputLines (printed vs) = vs.zipIdx.map fun p => predLine p.2 p.1 := by
    have := outputLines_text (vs.zipIdx.map fun p => predLine p.2 p.1) (fun l hl => ?_) (fun l hl => ?_)
    · rw [List.flatMap_map] at this
      rw [← this]
      unfold printed predLine
      simp
    · obtain ⟨p, -, rfl⟩ := List.mem_map.1 hl
      exact (predLine_clean _ _).1
    · obtain ⟨p, -, rfl⟩ := List.mem_map.1 hl
      unfold predLine; simp
  rw [e, mapOpt_map (fun p : ℚ × ℕ => predLine p.2 p.1) _ (fun p => g (fixedValue 6 p.1)) _ (fun p _ => by rw [parsePrediction_line]; rfl)]
  congr 1
  rw [show (fun p : ℚ × ℕ => g (fixedValue 6 p.1)) = (fun v => g (fixedValue 6 v)) ∘ Prod.fst from rfl, ← List.map_map, List.zipIdx_map_fst]

/-- **C111** (the type of the answer) a model declared with `out_dtype='float'` answers the printed numbers; one declared with `out_dtype='int'` answers integers, each the printed number without its fraction. -/
theorem C111_types (e : E) (X : List (List ℚ)) (vs : List ℚ) (hlen : vs.length = X.length) (hrun : run e (serialize X) = some (printed vs)) :
    answer run false (some e) X = some (vs.map (fixedValue 6)) ∧
    ∃ ks : List Int, answer run true (some e) X = some (ks.map (Int.cast : Int → ℚ)) ∧
      List.Forall₂ (fun v (k : Int) => |(k : ℚ)| ≤ |fixedValue 6 v| ∧ |fixedValue 6 v| < |(k : ℚ)| + 1 ∧ 0 ≤ (k : ℚ) * fixedValue 6 v) vs ks := by
  constructor
  · show (run e (serialize X)).bind (readPredictions false X) = _
    rw [hrun]
    show readPredictions false X (printed vs) = _
    unfold readPredictions
    rw [mapOpt_printed, Option.bind_some, if_pos (by simpa using hlen)]
    rfl
  · refine ⟨vs.map fun v => pyInt (fixedValue 6 v), ?_, ?_⟩
    · show (run e (serialize X)).bind (readPredictions true X) = _
      rw [hrun]
      show readPredictions true X (printed vs) = _
      unfold readPredictions
      rw [mapOpt_printed, Option.bind_some, if_pos (by simpa using hlen), List.map_map]
      rfl
    · rw [List.forall₂_map_right_iff]
      exact List.forall₂_same.2 fun v _ => pyInt_spec _

end

example : answer (fun (_ : Unit) _ => some (printed [5/2, -5/2])) false (some ()) [[1], [2]] = some [5/2, -5/2] ∧ answer (fun (_ : Unit) _ => some (printed [5/2, -5/2])) true (some ()) [[1], [2]] = some [2, -2] := by decide +kernel
end Emlearn.Session
