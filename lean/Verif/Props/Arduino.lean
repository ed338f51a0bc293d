/- C106: installing the C library for Arduino (`arduino/install.py`). -/
import Mathlib.Data.List.Basic
import Mathlib.Tactic.Push
import Verif.Arduino.Model
namespace Emlearn.Arduino

/-! ## Specification -/

/-- The files that belong to the library: `eml_….h` and `VERSION.txt`. -/
def Selected (name : Name) : Prop := ("eml_".toList <+: name ∧ ".h".toList <:+ name) ∨ name = "VERSION.txt".toList

/-- A path without glob characters. -/
def NoMagic (p : Path) : Prop := ∀ n ∈ p, '*' ∉ n ∧ '?' ∉ n ∧ '[' ∉ n

/-! ## Proofs -/

theorem get_put (fs : FS) (p q : Path) (n : Node) (hp : p ≠ []) : get (put fs p n) q = if q = p then some n else get fs q := by
  unfold get put
  by_cases hq : q = []
  · subst hq
    rw [if_pos rfl, if_neg (Ne.symm hp), if_pos rfl]
  · rw [if_neg hq, if_neg hq]
    by_cases h : q = p
    · subst h; simp
    · rw [if_neg h, List.find?_cons_of_neg (by simpa using fun e => h e.symm), List.find?_filter]
      congr 2
      funext e
      by_cases he : e.1 = q
      · simp [he, h]
      · simp [he]

theorem mem_listdir (fs : FS) (d : Path) (n : Name) : n ∈ listdir fs d ↔ get fs (d ++ [n]) ≠ none := by
  have hk : ∀ p : Path, (p.dropLast = d ∧ p.getLast? = some n) ↔ p = d ++ [n] := by
    intro p
    constructor
    · rintro ⟨h1, h2⟩
      rw [← h1]
      exact (List.dropLast_append_getLast? n h2).symm
    · rintro rfl; simp
  unfold listdir get
  rw [if_neg (by simp), List.mem_filterMap]
  simp only [ne_eq, Option.map_eq_none_iff, List.find?_eq_none, not_forall, decide_eq_true_eq, Decidable.not_not]
  constructor
  · rintro ⟨e, he, h⟩
    split at h
    · exact ⟨e, he, (hk _).1 ⟨‹_›, h⟩⟩
    · cases h
  · rintro ⟨e, he, h⟩
    refine ⟨e, he, ?_⟩
    have := (hk e.1).2 h
    rw [if_pos this.1, this.2]

theorem match_star (p : List Char) (n : Nat) (s : List Char) : fnmatchF (n + 1) ('*' :: p) s = (fnmatchF n p s || (match s with | [] => false | _ :: s' => fnmatchF n ('*' :: p) s')) := rfl

theorem match_dot_h (n : Nat) (s : List Char) : fnmatchF (n + 3) ['.', 'h'] s = true ↔ s = ['.', 'h'] := by
  rcases s with _ | ⟨a, _ | ⟨b, _ | ⟨c, s⟩⟩⟩ <;> simp [fnmatchF]

theorem match_star_dot_h (s : List Char) (n : Nat) (hn : s.length + 4 ≤ n) : fnmatchF n ['*', '.', 'h'] s = true ↔ ['.', 'h'] <:+ s := by
  induction s generalizing n with
  | nil =>
    obtain ⟨n, rfl⟩ := Nat.exists_eq_add_of_le hn
    have : ([] : List Char).length + 4 + n = (n + 3) + 1 := by simp; omega
    rw [this, match_star, Bool.or_eq_true, match_dot_h]
    simp
  | cons a s ih =>
    obtain ⟨n, rfl⟩ := Nat.exists_eq_add_of_le hn
    have : (a :: s).length + 4 + n = (s.length + n + 1 + 3) + 1 := by simp; omega
    rw [this, match_star, Bool.or_eq_true, match_dot_h]
    show (_ ∨ fnmatchF _ ['*', '.', 'h'] s = true) ↔ _
    rw [ih _ (by omega), List.suffix_cons_iff]
    simp [eq_comm]

theorem match_header (s : Name) : fnmatch headerPattern s = true ↔ "eml_".toList <+: s ∧ ".h".toList <:+ s := by
  have e : headerPattern.length + s.length + 1 = s.length + 4 + 1 + 1 + 1 + 1 := by simp [headerPattern]; omega
  unfold fnmatch
  rw [e]
  rcases s with _ | ⟨a, _ | ⟨b, _ | ⟨c, _ | ⟨d, s⟩⟩⟩⟩
  · simp [headerPattern, fnmatchF]
  · simp [headerPattern, fnmatchF]
  · simp [headerPattern, fnmatchF]
  · simp [headerPattern, fnmatchF]
  · have h1 : fnmatchF ((a :: b :: c :: d :: s).length + 4 + 1 + 1 + 1 + 1) headerPattern (a :: b :: c :: d :: s) =
        (a == 'e' && (b == 'm' && (c == 'l' && (d == '_' && fnmatchF ((a :: b :: c :: d :: s).length + 4) ['*', '.', 'h'] s)))) := rfl
    have h2 : ("eml_".toList <+: a :: b :: c :: d :: s) ↔ (a = 'e' ∧ b = 'm' ∧ c = 'l' ∧ d = '_') := by
      show ['e', 'm', 'l', '_'] <+: _ ↔ _
      simp [List.cons_prefix_cons, eq_comm]
    rw [h1, h2]
    simp only [Bool.and_eq_true, beq_iff_eq]
    rw [match_star_dot_h _ _ (by simp only [List.length_cons]; omega)]
    constructor
    · rintro ⟨rfl, rfl, rfl, rfl, h⟩
      refine ⟨⟨rfl, rfl, rfl, rfl⟩, ?_⟩
      show ['.', 'h'] <:+ _
      exact h.trans ⟨['e', 'm', 'l', '_'], rfl⟩
    · rintro ⟨⟨rfl, rfl, rfl, rfl⟩, h⟩
      refine ⟨rfl, rfl, rfl, rfl, ?_⟩
      have h : ['.', 'h'] <:+ 'e' :: 'm' :: 'l' :: '_' :: s := h
      simpa [List.suffix_cons_iff] using h

theorem magic_iff (n : Name) : magic n = true ↔ '*' ∈ n ∨ '?' ∈ n ∨ '[' ∈ n := by
  simp only [magic, List.any_eq_true, Bool.or_eq_true, beq_iff_eq]
  constructor
  · rintro ⟨c, hc, (rfl | rfl) | rfl⟩ <;> simp [hc]
  · rintro (h | h | h)
    · exact ⟨_, h, by simp⟩
    · exact ⟨_, h, by simp⟩
    · exact ⟨_, h, by simp⟩

theorem noMagic_any (inc : Path) (h : NoMagic inc) : inc.reverse.any magic = false := by
  rw [List.any_eq_false]
  intro n hn
  have := h n (List.mem_reverse.1 hn)
  rw [magic_iff]
  tauto

theorem mem_glob_header (fs : FS) (inc : Path) (h : NoMagic inc) (f : Path) :
    f ∈ glob fs inc headerPattern ↔ ∃ n, f = inc ++ [n] ∧ ("eml_".toList <+: n ∧ ".h".toList <:+ n) ∧ get fs (inc ++ [n]) ≠ none := by
  have hm : magic headerPattern = true := by decide
  have hany : (headerPattern :: inc.reverse).any magic = true := by rw [List.any_cons, hm]; rfl
  have hh : (headerPattern.head? == some '.') = false := by decide
  rw [glob, globRev, if_pos hany, noMagic_any inc h, if_neg (by simp)]
  simp only [List.flatMap_cons, List.flatMap_nil, List.append_nil, List.reverse_reverse, globIn, hm, if_true, List.mem_map, List.mem_filter, match_header, hh, Bool.false_or, Bool.and_eq_true, mem_listdir]
  constructor
  · rintro ⟨n, ⟨h1, _, h2⟩, rfl⟩; exact ⟨n, rfl, h2, h1⟩
  · rintro ⟨n, rfl, h2, h1⟩
    refine ⟨n, ⟨h1, ?_, h2⟩, rfl⟩
    obtain ⟨t, ht⟩ := h2.1
    rw [← ht]
    rfl

theorem glob_version (fs : FS) (inc : Path) (h : NoMagic inc) : glob fs inc versionFile = if get fs (inc ++ [versionFile]) ≠ none then [inc ++ [versionFile]] else [] := by
  have hm : magic versionFile = false := by decide
  have hany : (versionFile :: inc.reverse).any magic = false := by rw [List.any_cons, hm, noMagic_any inc h]; rfl
  rw [glob, globRev, if_neg (by rw [hany]; simp)]
  simp only [List.reverse_cons, List.reverse_reverse]
  rfl

theorem copy_get (fs fs' : FS) (src lib : Path) (h : copy fs src lib = some fs') :
    (∃ b, get fs src = some (.file b)) ∧ ∀ q, get fs' q = if q = lib ++ [src.getLastD []] then get fs src else get fs q := by
  unfold copy at h
  split at h
  · dsimp only at h
    split at h
    · cases h
    · split at h
      · rename_i b hb
        split at h
        · cases h
        · cases h
          refine ⟨⟨b, hb⟩, fun q => ?_⟩
          rw [get_put _ _ _ _ (by simp), hb]
      · cases h
  · cases h

theorem copyAll_frame (lib : Path) (l : List Path) (fs : FS) (q : Path) (hq : ∀ n, q ≠ lib ++ [n]) : get (copyAll lib l fs).2 q = get fs q := by
  induction l generalizing fs with
  | nil => rfl
  | cons f l ih =>
    rw [copyAll]
    cases h : copy fs f lib with
    | none => rfl
    | some fs' => 
      show get (copyAll lib l fs').2 q = _
      rw [ih, (copy_get _ _ _ _ h).2, if_neg (hq _)]

theorem copyAll_ok (lib inc : Path) (hne : inc ≠ lib) (l : List Path) (fs : FS) (hd : get fs lib = some .dir)
    (hl : ∀ f ∈ l, ∃ n, f = inc ++ [n] ∧ (∃ b, get fs f = some (.file b)) ∧ get fs (lib ++ [n]) ≠ some .dir) :
    (copyAll lib l fs).1 = true ∧ (∀ n, inc ++ [n] ∈ l → get (copyAll lib l fs).2 (lib ++ [n]) = get fs (inc ++ [n])) ∧
    ∀ q, (∀ n, q = lib ++ [n] → inc ++ [n] ∉ l) → get (copyAll lib l fs).2 q = get fs q := by
  have hsep : ∀ n m, inc ++ [n] ≠ lib ++ [m] := fun n m h => hne (List.append_inj_left' h rfl)
  have hlib : ∀ n, lib ≠ lib ++ [n] := fun n h => by have := congrArg List.length h; simp at this
  induction l generalizing fs with
  | nil => exact ⟨rfl, by simp, fun _ _ => rfl⟩
  | cons f l ih =>
    obtain ⟨n, rfl, ⟨b, hb⟩, hdst⟩ := hl f (by simp)
    have hcopy : copy fs (inc ++ [n]) lib = some (put fs (lib ++ [n]) (.file b)) := by
      have hlast : (inc ++ [n]).getLastD [] = n := by simp
      rw [copy, if_pos hd]
      simp only [hlast, hb]
      rw [if_neg (hsep n n), if_neg hdst]
    have hget := fun q => get_put fs (lib ++ [n]) q (.file b) (by simp)
    obtain ⟨i1, i2, i3⟩ := ih (put fs (lib ++ [n]) (.file b)) (by rw [hget, if_neg (hlib n), hd]) (by
      intro f hf
      obtain ⟨m, rfl, h1, h2⟩ := hl f (by simp [hf])
      refine ⟨m, rfl, by rw [hget, if_neg (hsep m n)]; exact h1, ?_⟩
      rw [hget]
      split
      · simp
      · exact h2)
    rw [copyAll, hcopy]
    refine ⟨i1, ?_, ?_⟩
    · intro m hm
      show get (copyAll lib l _).2 _ = _
      by_cases hml : inc ++ [m] ∈ l
      · rw [i2 m hml, hget, if_neg (hsep m n)]
      · have hmn : m = n := by
          rcases List.mem_cons.1 hm with h | h
          · simpa using h
          · exact absurd h hml
        subst hmn
        rw [i3 _ (fun k hk => by have : m = k := by simpa using hk
                                 subst this; exact hml), hget, if_pos rfl, hb]
    · intro q hq
      show get (copyAll lib l _).2 _ = _
      rw [i3 q (fun k hk hkl => hq k hk (by simp [hkl])), hget, if_neg (fun h => hq n h (by simp))]

theorem ensure_get (fs fs' : FS) (p : Path) (h : ensureDirSingle fs p = some fs') :
    (pathExists fs p ∧ fs' = fs) ∨ (get fs p = none ∧ ∀ q, get fs' q = if q = p then some .dir else get fs q) := by
  unfold ensureDirSingle at h
  split at h
  · cases h; exact Or.inl ⟨‹_›, rfl⟩
  · rw [mkdir] at h
    split at h
    · rename_i hh
      cases h
      refine Or.inr ⟨hh.1, fun q => get_put _ _ _ _ ?_⟩
      rintro rfl
      exact absurd hh.1 (by simp [get])
    · cases h

/-- The library directory. -/
def libDir (libs : Path) : Path := libs ++ ["emlearn".toList]

theorem install_eq (fs : FS) (inc libs : Path) (update : Bool) : install fs inc libs update =
    if pathExists fs (libDir libs) ∧ update = false then (.alreadyExists, fs)
    else match ensureDirSingle fs libs with
    | none => (.failed, fs)
    | some fs1 => match ensureDirSingle fs1 (libDir libs) with
      | none => (.failed, fs1)
      | some fs2 =>
        if (copyAll (libDir libs) (glob fs2 inc headerPattern) fs2).1 then
          (if (copyAll (libDir libs) (glob (copyAll (libDir libs) (glob fs2 inc headerPattern) fs2).2 inc versionFile) (copyAll (libDir libs) (glob fs2 inc headerPattern) fs2).2).1 then .installed (libDir libs) else .failed,
            (copyAll (libDir libs) (glob (copyAll (libDir libs) (glob fs2 inc headerPattern) fs2).2 inc versionFile) (copyAll (libDir libs) (glob fs2 inc headerPattern) fs2).2).2)
        else (.failed, (copyAll (libDir libs) (glob fs2 inc headerPattern) fs2).2) := rfl

/-- **C106.** An existing library is left alone unless an update is asked for: the installation ends with the error and nothing changes. -/
theorem C106_refuses (fs : FS) (inc libs : Path) (h : pathExists fs (libs ++ ["emlearn".toList])) : install fs inc libs false = (.alreadyExists, fs) := by
  rw [install_eq, if_pos ⟨h, rfl⟩]

/-- **C106.** Whatever the arguments and however the installation ends, nothing changes but the library directory, the files in it and the directory that holds it. -/
theorem C106_frame (fs : FS) (inc libs : Path) (update : Bool) (q : Path) (h1 : q ≠ libs) (h2 : q ≠ libs ++ ["emlearn".toList]) (h3 : ∀ n, q ≠ libs ++ ["emlearn".toList] ++ [n]) :
    get (install fs inc libs update).2 q = get fs q := by
  change q ≠ libDir libs at h2
  change ∀ n, q ≠ libDir libs ++ [n] at h3
  rw [install_eq]
  split
  · rfl
  · cases e1 : ensureDirSingle fs libs with
    | none => rfl
    | some fs1 =>
      have g1 : get fs1 q = get fs q := by
        rcases ensure_get _ _ _ e1 with ⟨_, rfl⟩ | ⟨_, h⟩
        · rfl
        · rw [h, if_neg h1]
      dsimp only
      cases e2 : ensureDirSingle fs1 (libDir libs) with
      | none => exact g1
      | some fs2 =>
        have g2 : get fs2 q = get fs q := by
          rcases ensure_get _ _ _ e2 with ⟨_, rfl⟩ | ⟨_, h⟩
          · exact g1
          · rw [h, if_neg h2, g1]
        dsimp only
        split
        · show get (copyAll _ _ _).2 q = _
          rw [copyAll_frame _ _ _ _ h3, copyAll_frame _ _ _ _ h3, g2]
        · show get (copyAll _ _ _).2 q = _
          rw [copyAll_frame _ _ _ _ h3, g2]

theorem header_or_version {n : Name} : Selected n ↔ ("eml_".toList <+: n ∧ ".h".toList <:+ n) ∨ n = versionFile := Iff.rfl

/-- **C106 (partial).** Installation from a directory whose path has no glob characters, into a new library directory or, with `update`, an existing one: it succeeds, every `eml_….h` and `VERSION.txt` of the source is in the library with the same content, and everything else is as before (apart from the directories created).
The hypotheses exclude what the file system itself forbids: the parent directory must exist, the files must not be directories, source and target must differ. Missing: paths with glob characters and a missing source directory (`C106_refuted`). -/
theorem C106_install_partial (fs : FS) (inc libs : Path) (update : Bool) (hm : NoMagic inc)
    (hlib : get fs (libs ++ ["emlearn".toList]) = none ∨ update = true ∧ get fs (libs ++ ["emlearn".toList]) = some .dir)
    (hlibs : get fs libs = some .dir ∨ get fs libs = none ∧ get fs libs.dropLast = some .dir)
    (hsrc : ∀ n, Selected n → get fs (inc ++ [n]) ≠ some .dir ∧ libs ≠ inc ++ [n])
    (hdst : ∀ n, Selected n → get fs (inc ++ [n]) ≠ none → get fs (libs ++ ["emlearn".toList] ++ [n]) ≠ some .dir)
    (hne : inc ≠ libs ++ ["emlearn".toList]) :
    ∃ fs', install fs inc libs update = (.installed (libs ++ ["emlearn".toList]), fs') ∧
      (∀ n, Selected n → get fs (inc ++ [n]) ≠ none → get fs' (libs ++ ["emlearn".toList] ++ [n]) = get fs (inc ++ [n])) ∧
      get fs' libs = some .dir ∧ get fs' (libs ++ ["emlearn".toList]) = some .dir ∧
      ∀ q, q ≠ libs → q ≠ libs ++ ["emlearn".toList] → (∀ n, Selected n → get fs (inc ++ [n]) ≠ none → q ≠ libs ++ ["emlearn".toList] ++ [n]) → get fs' q = get fs q := by
  change get fs (libDir libs) = none ∨ update = true ∧ get fs (libDir libs) = some .dir at hlib
  change ∀ n, Selected n → get fs (inc ++ [n]) ≠ none → get fs (libDir libs ++ [n]) ≠ some .dir at hdst
  change inc ≠ libDir libs at hne
  show ∃ fs', install fs inc libs update = (.installed (libDir libs), fs') ∧
      (∀ n, Selected n → get fs (inc ++ [n]) ≠ none → get fs' (libDir libs ++ [n]) = get fs (inc ++ [n])) ∧
      get fs' libs = some .dir ∧ get fs' (libDir libs) = some .dir ∧
      ∀ q, q ≠ libs → q ≠ libDir libs → (∀ n, Selected n → get fs (inc ++ [n]) ≠ none → q ≠ libDir libs ++ [n]) → get fs' q = get fs q
  have hll : libDir libs ≠ libs := fun h => by have := congrArg List.length h; simp [libDir] at this
  have hlln : ∀ n, libDir libs ++ [n] ≠ libs := fun n h => by have := congrArg List.length h; simp [libDir] at this
  have hln : ∀ n, libDir libs ++ [n] ≠ libDir libs := fun n h => by have := congrArg List.length h; simp at this
  have hsl : ∀ n, Selected n → inc ++ [n] ≠ libDir libs := by
    intro n hn h
    have he : n = "emlearn".toList := by
      have := List.append_inj_right' h rfl
      simpa using this
    subst he
    rcases hn with ⟨h, _⟩ | h
    · exact absurd h (by decide)
    · exact absurd h (by decide)
  have hsep : ∀ n m, inc ++ [n] ≠ libDir libs ++ [m] := fun n m h => hne (List.append_inj_left' h rfl)
  obtain ⟨fs1, e1, d1, g1⟩ : ∃ fs1, ensureDirSingle fs libs = some fs1 ∧ get fs1 libs = some .dir ∧ ∀ q, q ≠ libs → get fs1 q = get fs q := by
    rcases hlibs with h | ⟨h, hp⟩
    · exact ⟨fs, by rw [ensureDirSingle, if_pos (by simp [pathExists, h])], h, fun _ _ => rfl⟩
    · have hne0 : libs ≠ [] := by rintro rfl; simp [get] at h
      refine ⟨put fs libs .dir, by rw [ensureDirSingle, if_neg (by simp [pathExists, h]), mkdir, if_pos ⟨h, hp⟩], by rw [get_put _ _ _ _ hne0, if_pos rfl], fun q hq => by rw [get_put _ _ _ _ hne0, if_neg hq]⟩
  obtain ⟨fs2, e2, d2, g2⟩ : ∃ fs2, ensureDirSingle fs1 (libDir libs) = some fs2 ∧ get fs2 (libDir libs) = some .dir ∧ ∀ q, q ≠ libDir libs → get fs2 q = get fs1 q := by
    rcases hlib with h | ⟨_, h⟩
    · have h' : get fs1 (libDir libs) = none := by rw [g1 _ hll, h]
      have hne0 : libDir libs ≠ [] := by simp [libDir]
      refine ⟨put fs1 (libDir libs) .dir, ?_, by rw [get_put _ _ _ _ hne0, if_pos rfl], fun q hq => by rw [get_put _ _ _ _ hne0, if_neg hq]⟩
      rw [ensureDirSingle, if_neg (by simp [pathExists, h']), mkdir, if_pos ⟨h', by simpa [libDir] using d1⟩]
    · have h' : get fs1 (libDir libs) = some .dir := by rw [g1 _ hll, h]
      exact ⟨fs1, by rw [ensureDirSingle, if_pos (by simp [pathExists, h'])], h', fun _ _ => rfl⟩
  have s2 : ∀ n, Selected n → get fs2 (inc ++ [n]) = get fs (inc ++ [n]) := fun n hn => by rw [g2 _ (hsl n hn), g1 _ (hsrc n hn).2.symm]
  have t2 : ∀ n, get fs2 (libDir libs ++ [n]) = get fs (libDir libs ++ [n]) := fun n => by rw [g2 _ (hln n), g1 _ (hlln n)]
  have hfile : ∀ n, Selected n → get fs (inc ++ [n]) ≠ none → ∃ b, get fs (inc ++ [n]) = some (.file b) := by
    intro n hn hx
    cases h : get fs (inc ++ [n]) with
    | none => exact absurd h hx
    | some m => cases m with
      | file b => exact ⟨b, rfl⟩
      | dir => exact absurd h (hsrc n hn).1
  obtain ⟨o3, c3, f3⟩ := copyAll_ok (libDir libs) inc hne (glob fs2 inc headerPattern) fs2 d2 (by
    intro f hf
    obtain ⟨n, rfl, hn, hx⟩ := (mem_glob_header fs2 inc hm f).1 hf
    have hn : Selected n := Or.inl hn
    rw [s2 n hn] at hx
    exact ⟨n, rfl, by rw [s2 n hn]; exact hfile n hn hx, by rw [t2]; exact hdst n hn hx⟩)
  have c3' : ∀ n, ("eml_".toList <+: n ∧ ".h".toList <:+ n) → get fs (inc ++ [n]) ≠ none → get (copyAll (libDir libs) (glob fs2 inc headerPattern) fs2).2 (libDir libs ++ [n]) = get fs (inc ++ [n]) := by
    intro n hn hx
    rw [c3 n ((mem_glob_header fs2 inc hm _).2 ⟨n, rfl, hn, by rw [s2 n (Or.inl hn)]; exact hx⟩), s2 n (Or.inl hn)]
  have f3' : ∀ q, (∀ n, ("eml_".toList <+: n ∧ ".h".toList <:+ n) → get fs (inc ++ [n]) ≠ none → q ≠ libDir libs ++ [n]) → get (copyAll (libDir libs) (glob fs2 inc headerPattern) fs2).2 q = get fs2 q := by
    intro q hq
    refine f3 q fun n hqn hmem => ?_
    obtain ⟨m, hm1, hm2, hm3⟩ := (mem_glob_header fs2 inc hm _).1 hmem
    have hnm : n = m := by simpa using hm1
    subst hnm
    rw [s2 n (Or.inl hm2)] at hm3
    exact hq n hm2 hm3 hqn
  have hver : ¬ ("eml_".toList <+: versionFile ∧ ".h".toList <:+ versionFile) := by decide
  clear c3 f3
  obtain ⟨r3, e3⟩ : ∃ r, copyAll (libDir libs) (glob fs2 inc headerPattern) fs2 = r := ⟨_, rfl⟩
  rw [e3] at o3 c3' f3'
  have c3 := c3'
  have f3 := f3'
  have d3 : get r3.2 (libDir libs) = some .dir := by rw [f3 _ fun n _ _ h => hln n h.symm, d2]
  have v3 : get r3.2 (inc ++ [versionFile]) = get fs (inc ++ [versionFile]) := by rw [f3 _ fun n _ _ h => hsep _ _ h, s2 versionFile (Or.inr rfl)]
  obtain ⟨o4, c4, f4⟩ := copyAll_ok (libDir libs) inc hne (glob r3.2 inc versionFile) r3.2 d3 (by
    intro f hf
    rw [glob_version _ _ hm] at hf
    split at hf
    · rename_i hx
      simp only [List.mem_singleton] at hf
      subst hf
      rw [v3] at hx ⊢
      refine ⟨_, rfl, hfile _ (Or.inr rfl) hx, ?_⟩
      rw [f3, t2]
      · exact hdst _ (Or.inr rfl) hx
      · intro n hn _ h
        have : versionFile = n := by simpa using h
        exact hver (this ▸ hn)
    · simp at hf)
  have hmem4 : ∀ n, inc ++ [n] ∈ glob r3.2 inc versionFile ↔ n = versionFile ∧ get fs (inc ++ [versionFile]) ≠ none := by
    intro n
    rw [glob_version _ _ hm, v3]
    split <;> simp_all
  refine ⟨(copyAll (libDir libs) (glob r3.2 inc versionFile) r3.2).2, ?_, ?_, ?_, ?_, ?_⟩
  · rw [install_eq, if_neg (by rcases hlib with h | ⟨h, _⟩ <;> simp [pathExists, h]), e1]
    dsimp only
    rw [e2]
    dsimp only
    rw [e3, if_pos o3, if_pos o4]
  · intro n hn hx
    rcases hn with hn | rfl
    · rw [f4 _ fun m hm1 hm2 => ?_, c3 n hn hx]
      have : n = m := by simpa using hm1
      subst this
      exact hver (((hmem4 n).1 hm2).1 ▸ hn)
    · exact (c4 versionFile ((hmem4 _).2 ⟨rfl, hx⟩)).trans v3
  · rw [f4 _ fun m hm1 _ => hlln m hm1.symm, f3 _ fun m _ _ h => hlln m h.symm, g2 _ hll.symm, d1]
  · rw [f4 _ fun m hm1 _ => hln m hm1.symm, d3]
  · intro q h1 h2 h3
    rw [f4 q fun m hm1 hm2 => ?_, f3 q fun m hm1 hm2 => h3 m (Or.inl hm1) hm2, g2 _ h2, g1 _ h1]
    have := (hmem4 m).1 hm2
    exact h3 m (Or.inr this.1) (by rw [this.1]; exact this.2) hm1

/-- **C106 refuted**: an installation reports success without having copied a header when the path of the source directory has a glob character (here a directory `a[1]` with `eml_x.h`) and when the source directory does not exist. -/
theorem C106_refuted : ∃ (fs : FS) (inc libs : Path),
    get fs (inc ++ ["eml_x.h".toList]) = some (.file [1]) ∧ (install fs inc libs false).1 = .installed (libs ++ ["emlearn".toList]) ∧
    (∀ n, get (install fs inc libs false).2 (libs ++ ["emlearn".toList] ++ [n]) = none) ∧
    (install fs ["nowhere".toList] libs false).1 = .installed (libs ++ ["emlearn".toList]) := by
  refine ⟨[(["a[1]".toList], .dir), (["a[1]".toList, "eml_x.h".toList], .file [1]), (["l".toList], .dir)], ["a[1]".toList], ["l".toList], by decide, by decide +kernel, fun n => ?_, by decide +kernel⟩
  have : (install [(["a[1]".toList], .dir), (["a[1]".toList, "eml_x.h".toList], .file [1]), (["l".toList], .dir)] ["a[1]".toList] ["l".toList] false).2 =
    [(["l".toList, "emlearn".toList], .dir), (["a[1]".toList], .dir), (["a[1]".toList, "eml_x.h".toList], .file [1]), (["l".toList], .dir)] := by decide +kernel
  rw [this]
  simp [get]

/-- **C106.** An update does not remove: a file in the library that the source does not have stays, an outdated header included. -/
theorem C106_update_keeps (fs : FS) (inc libs : Path) (hm : NoMagic inc) (hlib : get fs (libs ++ ["emlearn".toList]) = some .dir)
    (hlibs : get fs libs = some .dir) (hsrc : ∀ n, Selected n → get fs (inc ++ [n]) ≠ some .dir)
    (hdst : ∀ n, Selected n → get fs (libs ++ ["emlearn".toList] ++ [n]) ≠ some .dir) (hne : inc ≠ libs ++ ["emlearn".toList])
    (n : Name) (hn : get fs (inc ++ [n]) = none) :
    (install fs inc libs true).1 = .installed (libs ++ ["emlearn".toList]) ∧ get (install fs inc libs true).2 (libs ++ ["emlearn".toList] ++ [n]) = get fs (libs ++ ["emlearn".toList] ++ [n]) := by
  obtain ⟨fs', h1, _, _, _, h2⟩ := C106_install_partial fs inc libs true hm (Or.inr ⟨rfl, hlib⟩) (Or.inl hlibs)
    (fun n hn => ⟨hsrc n hn, fun h => hsrc n hn (h ▸ hlibs)⟩) (fun n hn _ => hdst n hn) hne
  rw [h1]
  refine ⟨rfl, h2 _ (fun h => by have := congrArg List.length h; simp at this) (fun h => by have := congrArg List.length h; simp at this) fun m _ hx h => ?_⟩
  have : n = m := by simpa using h
  exact hx (this ▸ hn)

/-- Non-vacuity: a first installation. -/
example : ∃ fs', install [(["inc".toList], .dir), (["inc".toList, "eml_net.h".toList], .file [1]), (["inc".toList, "VERSION.txt".toList], .file [2]), (["inc".toList, "net.py".toList], .file [3]), (["l".toList], .dir)]
    ["inc".toList] ["l".toList] false = (.installed ["l".toList, "emlearn".toList], fs') ∧ get fs' ["l".toList, "emlearn".toList, "eml_net.h".toList] = some (.file [1]) ∧
    get fs' ["l".toList, "emlearn".toList, "VERSION.txt".toList] = some (.file [2]) ∧ get fs' ["l".toList, "emlearn".toList, "net.py".toList] = none := by
  refine ⟨[(["l".toList, "emlearn".toList, "VERSION.txt".toList], .file [2]), (["l".toList, "emlearn".toList, "eml_net.h".toList], .file [1]), (["l".toList, "emlearn".toList], .dir),
    (["inc".toList], .dir), (["inc".toList, "eml_net.h".toList], .file [1]), (["inc".toList, "VERSION.txt".toList], .file [2]), (["inc".toList, "net.py".toList], .file [3]), (["l".toList], .dir)], ?_⟩
  decide +kernel

end Emlearn.Arduino
