/- C100: the `save` methods. -/
import Verif.Convert.Save
import Verif.Trees.Text
import Verif.Neighbors.Text
import Verif.Net.Codegen
import Verif.Bayes.Text
import Verif.Distance.Text
import Verif.Mixture.Text
import Mathlib.Data.List.Basic
namespace Emlearn.Save

/-! ### Specification -/

/-- The name a file name without directory gives: what precedes the last dot; the whole of it if there is no dot or only dots precede the last one. -/
def IsStem (base stem : List Char) : Prop :=
  (∃ ext, base = stem ++ '.' :: ext ∧ '.' ∉ ext ∧ ∃ c ∈ stem, c ≠ '.') ∨ (base = stem ∧ ∀ r ext, base = r ++ '.' :: ext → '.' ∉ ext → ∀ c ∈ r, c = '.')

/-- The name that is used: the given one, otherwise the one from the file name. -/
def NameUsed (name file : Option (List Char)) (n : List Char) : Prop :=
  name = some n ∨ name = none ∧ ∃ dir base, file = some (dir ++ base) ∧ (dir = [] ∨ ∃ d, dir = d ++ ['/']) ∧ '/' ∉ base ∧ IsStem base n

/-- A call that raised has not touched the file system. -/
def Untouched (disk : Disk) (o : Outcome) : Prop := o.states = [disk]

/-- A call that succeeded: the named file finally contains the returned text; at every moment it contained what it did before or a beginning of the text; no other file is ever changed; without a file nothing is. -/
structure Saved (disk : Disk) (file : Option (List Char)) (code : List Char) (o : Outcome) : Prop where
  result : o.result = .ok code
  initial : o.states.head? = some disk
  final : ∃ d, o.states.getLast? = some d ∧ (∀ f, file = some f → f ≠ [] → d f = some code) ∧ ∀ p, file ≠ some p → d p = disk p
  others : ∀ d ∈ o.states, ∀ p, file ≠ some p → d p = disk p
  target : ∀ d ∈ o.states, ∀ f, file = some f → d f = disk f ∨ ∃ t, d f = some t ∧ t <+: code
  noFile : file = none ∨ file = some [] → o.states = [disk]

/-! ### Names -/

theorem dropWhile_split {l r : List Char} {c : Char} (hr : c ∉ r) : (r ++ c :: l).dropWhile (· ≠ c) = c :: l := by
  induction r with
  | nil => simp
  | cons a r ih =>
    have ha : a ≠ c := fun e => hr (by simp [e])
    simp only [List.cons_append]
    rw [List.dropWhile_cons, if_pos (by simpa using ha)]
    exact ih fun h => hr (by simp [h])

theorem splitextRoot_eq (base n : List Char) : splitextRoot base = n ↔ IsStem base n := by
  have hcut : ∀ r ext, base = r ++ '.' :: ext → '.' ∉ ext → splitextRoot base = if r.all (· == '.') then base else r := by
    intro r ext e h
    unfold splitextRoot
    have : base.reverse.dropWhile (· ≠ '.') = '.' :: r.reverse := by
      rw [e, List.reverse_append, List.reverse_cons, List.append_assoc, List.singleton_append]
      exact dropWhile_split (by simpa using h)
    rw [this]
    simp
  have hnone : '.' ∉ base → splitextRoot base = base := by
    intro h
    unfold splitextRoot
    have : base.reverse.dropWhile (· ≠ '.') = [] := by
      have key : ∀ l : List Char, '.' ∉ l → l.dropWhile (· ≠ '.') = [] := by
        intro l hl
        induction l with
        | nil => rfl
        | cons c l ih =>
          have hc : c ≠ '.' := fun e => hl (by simp [e])
          rw [List.dropWhile_cons, if_pos (by simpa using hc), ih fun h => hl (by simp [h])]
      exact key _ (by simpa using h)
    rw [this]
  by_cases hd : '.' ∈ base
  · obtain ⟨r, ext, e, h⟩ : ∃ r ext, base = r ++ '.' :: ext ∧ '.' ∉ ext := by
      have key : ∀ l : List Char, '.' ∈ l → ∃ r ext, l = r ++ '.' :: ext ∧ '.' ∉ ext := by
        intro l
        induction l with
        | nil => intro h; cases h
        | cons c l ih =>
          intro h
          by_cases hl : '.' ∈ l
          · obtain ⟨r, ext, e, h⟩ := ih hl
            exact ⟨c :: r, ext, by rw [e]; rfl, h⟩
          · rcases List.mem_cons.1 h with rfl | h'
            · exact ⟨[], l, rfl, hl⟩
            · exact absurd h' hl
      exact key base hd
    rw [hcut r ext e h]
    have huniq : ∀ r' ext', base = r' ++ '.' :: ext' → '.' ∉ ext' → r' = r := by
      intro r' ext' e' h'
      have h1 := congrArg List.reverse (e.symm.trans e')
      simp only [List.reverse_append, List.reverse_cons, List.append_assoc, List.singleton_append] at h1
      have h2 := congrArg (List.dropWhile (· ≠ '.')) h1
      rw [dropWhile_split (by simpa using h), dropWhile_split (by simpa using h')] at h2
      simpa using (List.cons.inj h2).2.symm
    by_cases ha : r.all (· == '.') = true
    · rw [if_pos ha]
      have hall : ∀ c ∈ r, c = '.' := by simpa using ha
      constructor
      · rintro rfl
        exact .inr ⟨rfl, fun r' ext' e' h' => huniq r' ext' e' h' ▸ hall⟩
      · rintro (⟨ext', e', h', c, hc, hne⟩ | ⟨e', -⟩)
        · exact absurd (hall c (huniq n ext' e' h' ▸ hc)) hne
        · exact e'
    · rw [if_neg ha]
      have hex : ∃ c ∈ r, c ≠ '.' := by simpa using ha
      constructor
      · rintro rfl
        exact .inl ⟨ext, e, h, hex⟩
      · rintro (⟨ext', e', h', -⟩ | ⟨-, h2⟩)
        · exact (huniq n ext' e' h').symm
        · obtain ⟨c, hc, hne⟩ := hex
          exact absurd (h2 r ext e h c hc) hne
  · rw [hnone hd]
    constructor
    · rintro rfl
      exact .inr ⟨rfl, fun r ext e => absurd (by rw [e]; simp) hd⟩
    · rintro (⟨ext, e, -⟩ | ⟨e, -⟩)
      · exact absurd (by rw [e]; simp) hd
      · exact e

theorem basename_split {dir base : List Char} (hd : dir = [] ∨ ∃ d, dir = d ++ ['/']) (hb : '/' ∉ base) : basename (dir ++ base) = base := by
  unfold basename
  have ht : ∀ (b d : List Char), '/' ∉ b → (d = [] ∨ ∃ e, d = '/' :: e) → (b ++ d).takeWhile (· ≠ '/') = b := by
    intro b d hb hd
    induction b with
    | nil =>
      rcases hd with rfl | ⟨e, rfl⟩
      · rfl
      · simp
    | cons c b ih =>
      have hc : c ≠ '/' := fun e => hb (by simp [e])
      rw [List.cons_append, List.takeWhile_cons, if_pos (by simpa using hc), ih fun h => hb (by simp [h])]
  rw [List.reverse_append, ht base.reverse dir.reverse (by simpa using hb), List.reverse_reverse]
  rcases hd with rfl | ⟨d, rfl⟩
  · exact .inl rfl
  · exact .inr ⟨d.reverse, by simp⟩

theorem basename_exists (p : List Char) : ∃ dir base, p = dir ++ base ∧ (dir = [] ∨ ∃ d, dir = d ++ ['/']) ∧ '/' ∉ base := by
  induction p with
  | nil => exact ⟨[], [], rfl, .inl rfl, by simp⟩
  | cons c p ih =>
    obtain ⟨dir, base, e, h1, h2⟩ := ih
    rcases h1 with rfl | ⟨d, rfl⟩
    · by_cases hc : c = '/'
      · exact ⟨['/'], base, by rw [hc, e]; rfl, .inr ⟨[], rfl⟩, h2⟩
      · exact ⟨[], c :: base, by rw [e]; rfl, .inl rfl, by simp [h2, Ne.symm hc]⟩
    · exact ⟨c :: (d ++ ['/']), base, by rw [e]; rfl, .inr ⟨c :: d, rfl⟩, h2⟩

/-- **C100 (name).** Exactly one name is used unless both `name` and `file` are missing: the given one, or else the part of the file's name before its extension. -/
theorem C100_name (name file : Option (List Char)) : (∃! n, NameUsed name file n) ↔ ¬(name = none ∧ file = none) := by
  match name, file with
  | none, none =>
    constructor
    · rintro ⟨n, h, -⟩
      rcases h with h | ⟨-, d, b, h, -⟩ <;> cases h
    · intro h; exact absurd ⟨rfl, rfl⟩ h
  | some n, file =>
    refine ⟨fun _ h => (by cases h.1), fun _ => ⟨n, .inl rfl, ?_⟩⟩
    rintro m (h | ⟨h, -⟩)
    · exact (Option.some.inj h).symm
    · cases h
  | none, some f =>
    refine ⟨fun _ h => (by cases h.2), fun _ => ?_⟩
    obtain ⟨dir, base, e, h1, h2⟩ := basename_exists f
    refine ⟨splitextRoot base, .inr ⟨rfl, dir, base, by rw [e], h1, h2, (splitextRoot_eq _ _).1 rfl⟩, ?_⟩
    rintro m (h | ⟨-, dir', base', e', h1', h2', h3'⟩)
    · cases h
    · have : base' = base := by
        have a := basename_split h1 h2
        have b := basename_split h1' h2'
        rw [← e] at a
        rw [← Option.some.inj e'] at b
        rw [← a, ← b]
      subst this
      exact ((splitextRoot_eq _ _).2 h3').symm

/-! ### Saving -/

theorem finish_ok (writable : List Char → Bool) (file : Option (List Char)) (disk : Disk) (code : List Char) :
    (∀ f, file = some f → f ≠ [] → writable f = true) → Saved disk file code (finish writable file disk code) := by
  intro hw
  have hsame : file = none ∨ file = some [] → Saved disk file code ⟨.ok code, [disk]⟩ := by
    intro hf
    refine ⟨rfl, rfl, ⟨disk, rfl, ?_, fun _ _ => rfl⟩, ?_, ?_, fun _ => rfl⟩
    · rintro f rfl h
      rcases hf with hf | hf
      · cases hf
      · exact absurd (Option.some.inj hf) h
    · intro d hd p _
      rw [List.mem_singleton.1 hd]
    · intro d hd f _
      exact .inl (by rw [List.mem_singleton.1 hd])
  match file with
  | none => exact hsame (.inl rfl)
  | some [] => exact hsame (.inr rfl)
  | some (c :: f) =>
    have hwf := hw (c :: f) rfl (by simp)
    have hfin : finish writable (some (c :: f)) disk code = ⟨.ok code, disk :: (List.range (code.length + 1)).map (fun k => disk.write (c :: f) (code.take k))⟩ := by simp only [finish, hwf, if_true]
    rw [hfin]
    have hother : ∀ k p, some (c :: f) ≠ some p → disk.write (c :: f) (code.take k) p = disk p := by
      intro k p hp
      unfold Disk.write
      rw [if_neg fun e => hp (by rw [e])]
    refine ⟨rfl, rfl, ⟨disk.write (c :: f) code, ?_, ?_, ?_⟩, ?_, ?_, ?_⟩
    · rw [List.range_succ, List.map_append, ← List.cons_append, List.getLast?_append]
      simp
    · intro g hg _
      rw [← Option.some.inj hg]
      simp [Disk.write]
    · intro p hp
      have := hother code.length p hp
      rwa [List.take_length] at this
    · intro d hd p hp
      rcases List.mem_cons.1 hd with rfl | hd
      · rfl
      · obtain ⟨k, -, rfl⟩ := List.mem_map.1 hd
        exact hother k p hp
    · intro d hd g hg
      rcases List.mem_cons.1 hd with rfl | hd
      · exact .inl rfl
      · obtain ⟨k, -, rfl⟩ := List.mem_map.1 hd
        rw [← Option.some.inj hg]
        exact .inr ⟨code.take k, by simp [Disk.write], List.take_prefix _ _⟩
    · rintro (h | h) <;> cases h

theorem nameUsed_file (f : List Char) : NameUsed none (some f) (splitextRoot (basename f)) := by
  obtain ⟨dir, base, e, h1, h2⟩ := basename_exists f
  refine .inr ⟨rfl, dir, base, by rw [e], h1, h2, ?_⟩
  rw [e, basename_split h1 h2]
  exact (splitextRoot_eq _ _).1 rfl

/-- **C100.** Every `save` method, as a function of the code it generates for a name: it raises and leaves all files as they are, or the code for the name in use is returned and saved; it raises `ValueError` when
both `name` and `file` are missing, and the generator's exception otherwise - before the file is opened, so that an existing file keeps its contents. -/
theorem C100_save (gen : List Char → Except Err (List Char)) (writable : List Char → Bool) (name file : Option (List Char)) (disk : Disk) :
    (name = none ∧ file = none → (saveWith gen writable name file disk).result = .error .value) ∧
    (∀ n, NameUsed name file n → (∀ e, gen n = .error e → (saveWith gen writable name file disk).result = .error e) ∧
      ∀ code, gen n = .ok code → ((∃ f, file = some f ∧ f ≠ [] ∧ writable f = false) ∧ (saveWith gen writable name file disk).result = .error .os) ∨ Saved disk file code (saveWith gen writable name file disk)) ∧
    ∀ e, (saveWith gen writable name file disk).result = .error e → Untouched disk (saveWith gen writable name file disk) := by
  have hfin : ∀ code, ((∃ f, file = some f ∧ f ≠ [] ∧ writable f = false) ∧ (finish writable file disk code).result = .error .os) ∨ Saved disk file code (finish writable file disk code) := by
    intro code
    by_cases h : ∃ f, file = some f ∧ f ≠ [] ∧ writable f = false
    · obtain ⟨f, rfl, hne, hw⟩ := h
      refine .inl ⟨⟨f, rfl, hne, hw⟩, ?_⟩
      match f, hne with
      | c :: f, _ => simp [finish, hw]
    · refine .inr (finish_ok writable file disk code fun f hf hne => ?_)
      by_contra hw
      exact h ⟨f, hf, hne, by simpa using hw⟩
  have hfinE : ∀ code e, (finish writable file disk code).result = .error e → Untouched disk (finish writable file disk code) := by
    intro code e h
    unfold finish at h ⊢
    split at h
    · cases h
    · cases h
    · split at h
      · cases h
      · rename_i hw
        rw [if_neg hw]
        rfl
  have huniq : ∀ n m, NameUsed name file n → NameUsed name file m → n = m := by
    intro n m hn hm
    have : ¬(name = none ∧ file = none) := by
      rintro ⟨rfl, rfl⟩
      rcases hn with h | ⟨-, d, b, h, -⟩ <;> cases h
    exact ((C100_name name file).2 this).unique hn hm
  refine ⟨?_, ?_, ?_⟩
  · rintro ⟨rfl, rfl⟩
    rfl
  · intro n hn
    match name, file, hn, hfin, huniq with
    | none, none, hn, _, _ => rcases hn with h | ⟨-, d, b, h, -⟩ <;> cases h
    | none, some f, hn, hfin, huniq =>
      have : n = splitextRoot (basename f) := huniq _ _ hn (nameUsed_file f)
      subst this
      refine ⟨fun e he => by simp only [saveWith, he], fun code hc => ?_⟩
      simp only [saveWith, hc]
      exact hfin code
    | some m, file, hn, hfin, huniq =>
      have : n = m := huniq _ _ hn (.inl rfl)
      subst this
      refine ⟨fun e he => by simp only [saveWith, he], fun code hc => ?_⟩
      simp only [saveWith, hc]
      exact hfin code
  · intro e he
    match name, file, he, hfinE with
    | none, none, _, _ => rfl
    | none, some f, he, hfinE =>
      simp only [saveWith] at he ⊢
      split at he
      · rfl
      · exact hfinE _ _ he
    | some m, file, he, hfinE =>
      simp only [saveWith] at he ⊢
      split at he
      · rfl
      · exact hfinE _ _ he

/-- **C100 (strategies of networks).** `inference` must name exactly one of the two strategies; the text is that strategy's, after a newline. -/
theorem C100_net (loadable inline : List Char → Option (List Char)) (inference : List String) (name : List Char) :
    netCode loadable inline inference name =
      if ("loadable" ∈ inference) = ("inline" ∈ inference) then .error .value
      else match (if "loadable" ∈ inference then loadable name else inline name) with | none => .error .generator | some t => .ok ('\n' :: t) := by
  unfold netCode
  by_cases h1 : "loadable" ∈ inference <;> by_cases h2 : "inline" ∈ inference
  · simp [h1, h2]
  · simp only [h1, h2, and_false, if_false, if_true, eq_iff_iff, true_iff]
    cases loadable name <;> rfl
  · simp only [h1, h2, false_and, if_false, if_true, eq_iff_iff, false_iff, not_true_eq_false]
    cases inline name <;> rfl
  · simp [h1, h2]

/-- **C100 (trees).** The strategy is the one given to the constructor, or the single one given to `save`; more or fewer than one are refused with `ValueError`, whatever the rest, and nothing is written. -/
theorem C100_trees (loadable inline : List Char → Option (List Char)) (csv : Option (List Char)) (method format : String) (writable : List Char → Bool) (name file : Option (List Char)) (disk : Disk) :
    (∀ l : List String, l.length ≠ 1 → saveTrees loadable inline csv method format (some l) writable name file disk = ⟨.error .value, [disk]⟩) ∧
    (∀ s, saveTrees loadable inline csv method format (some [s]) writable name file disk = saveTrees loadable inline csv s format none writable name file disk) ∧
    saveTrees loadable inline csv method format none writable name file disk = saveWith (fun n =>
      if format = "c" then
        if method = "loadable" then (match loadable n with | none => .error .generator | some t => .ok ("\n\n".toList ++ t))
        else if method = "inline" then (match inline n with | none => .error .generator | some t => .ok ("\n\n".toList ++ t))
        else .error .value
      else if format = "csv" then (match csv with | none => .error .generator | some t => .ok t)
      else .error .value) writable name file disk := by
  refine ⟨fun l hl => by simp [saveTrees, hl], fun s => by simp [saveTrees], ?_⟩
  unfold saveTrees
  simp only
  congr 1
  funext n
  unfold treesCode
  by_cases h1 : format = "c"
  · rw [if_pos h1, if_pos h1]
    by_cases h2 : method = "loadable"
    · subst h2
      simp only [List.mem_singleton, if_true]
      cases loadable n <;> simp
    · rw [if_neg (by simpa using Ne.symm h2), if_neg h2]
      by_cases h3 : method = "inline"
      · subst h3
        simp only [List.mem_singleton, if_true]
        cases inline n <;> rfl
      · rw [if_neg (by simpa using Ne.symm h3), if_neg h3]
  · rw [if_neg h1, if_neg h1]
    by_cases h4 : format = "csv"
    · rw [if_pos h4, if_pos h4]; cases csv <;> rfl
    · rw [if_neg h4, if_neg h4]

/-- **C100 (names that are not identifiers).** A name - given, or taken from the file's name - that is not an identifier of C is refused by every generator: `save` raises and leaves all files as they are. -/
theorem C100_refused (writable : List Char → Bool) (name file : Option (List Char)) (disk : Disk) (n : List Char) (hn : NameUsed name file n) (hbad : Cgen.assertValidIdentifier n = false)
    (gen : List Char → Option (List Char))
    (hg : (∃ other means prec offset, gen = fun pre => Distance.CText.generateText other pre means prec offset) ∨ (∃ nf table, gen = fun pre => Bayes.CText.generateText pre nf table) ∨
      (∃ other means prec ld lw nf cov, gen = fun pre => Mixture.CText.generateText other pre means prec ld lw nf cov) ∨ (∃ other data nf labels k, gen = fun pre => Neighbors.CText.saveText other pre data nf labels k) ∨
      (∃ other ds, gen = fun pre => (Net.Codegen.loadableText other pre ds).map fun t => '\n' :: t) ∨
      (∃ (f : Trees.Forest ℚ ℚ) (nf nc : Nat) (lb : Int) (dt : List Char) (cl ip : Bool) (m : List Char) (bytes : List Nat), gen = fun pre => (Trees.generateLoadableText f pre nf nc lb dt cl ip m bytes).map fun t => "\n\n".toList ++ t) ∨
      (∃ (f : Trees.Forest ℚ ℚ) (nc : Nat) (lb : Int) (dt : List Char) (cl ip : Bool) (m : List Char) (num : ℚ → ℚ) (bytes : List Nat), gen = fun pre => (Trees.generateInlined f pre nc lb dt cl ip m num bytes).map fun t => "\n\n".toList ++ t)) :
    (saveOne gen writable name file disk).result = .error .generator ∧ Untouched disk (saveOne gen writable name file disk) := by
  have hnone : gen n = none := by
    rcases hg with ⟨_, _, _, _, rfl⟩ | ⟨_, _, rfl⟩ | ⟨_, _, _, _, _, _, _, rfl⟩ | ⟨_, _, _, _, _, rfl⟩ | ⟨_, _, rfl⟩ | ⟨_, _, _, _, _, _, _, _, _, rfl⟩ | ⟨_, _, _, _, _, _, _, _, _, rfl⟩
    · simp [Distance.CText.generateText, hbad]
    · simp [Bayes.CText.generateText, hbad]
    · simp [Mixture.CText.generateText, hbad]
    · simp [Neighbors.CText.saveText, hbad]
    · simp [Net.Codegen.loadableText, hbad]
    · simp [Trees.generateLoadableText, hbad]
    · simp [Trees.generateInlined, hbad]
  obtain ⟨-, h2, h3⟩ := C100_save (fun n => ofGenerator (gen n)) writable name file disk
  have := (h2 n hn).1 .generator (by rw [hnone]; rfl)
  exact ⟨this, h3 _ this⟩

/-- `out/model.h` gives the name `model`, `v1.2/my.model.h` gives `my.model`, which is refused; `.h` is a name without extension. -/
example : NameUsed none (some "out/model.h".toList) "model".toList ∧ NameUsed none (some "v1.2/my.model.h".toList) "my.model".toList ∧ NameUsed none (some "out/.h".toList) ".h".toList ∧
    Cgen.assertValidIdentifier "my.model".toList = false ∧ Cgen.assertValidIdentifier "model".toList = true := by
  have h1 := nameUsed_file "out/model.h".toList
  have h2 := nameUsed_file "v1.2/my.model.h".toList
  have h3 := nameUsed_file "out/.h".toList
  rw [show splitextRoot (basename "out/model.h".toList) = "model".toList by decide +kernel] at h1
  rw [show splitextRoot (basename "v1.2/my.model.h".toList) = "my.model".toList by decide +kernel] at h2
  rw [show splitextRoot (basename "out/.h".toList) = ".h".toList by decide +kernel] at h3
  exact ⟨h1, h2, h3, by decide +kernel, by decide +kernel⟩

/-- A save that is cut short leaves a truncated file: saving is not atomic. -/
theorem C100_atomic_refuted : ∃ (gen : List Char → Option (List Char)) (disk : Disk) (f : List Char), ∃ d ∈ (saveOne gen (fun _ => true) none (some f) disk).states, d f ≠ disk f ∧ ∀ code, gen (splitextRoot (basename f)) = some code → d f ≠ some code := by
  refine ⟨fun _ => some ['x'], fun _ => none, "m.h".toList, (Disk.write (fun _ => none) "m.h".toList []), ?_, ?_, ?_⟩
  · simp [saveOne, saveWith, ofGenerator, finish, List.range_succ]
  · simp [Disk.write]
  · intro code hc
    rw [← Option.some.inj hc]
    simp [Disk.write]

end Emlearn.Save
