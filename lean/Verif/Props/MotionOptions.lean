/- C108: the command line of `motion_process`. -/
import Verif.Motion.Process
import Verif.Props.CgenMore
namespace Emlearn.Motion

/-! ### C108: command line -/

/-- The name of an option on the command line. -/
def Opt.name : Opt → List Char
  | .input => "input".toList
  | .output => "output".toList
  | .samplerate => "samplerate".toList
  | .hopLength => "hop_length".toList
  | .windowLength => "window_length".toList

/-- Specification: how one option with its value, or one ignored word, is written. -/
inductive Item
  | set (twoDashes : Bool) (o : Opt) (value : List Char)
  | word (w : List Char)

/-- The option word: one or two dashes and the name. -/
def optWord (twoDashes : Bool) (o : Opt) : List Char := (if twoDashes then ['-', '-'] else ['-']) ++ o.name

/-- The arguments of an item. -/
def Item.args : Item → List (List Char)
  | .set d o v => [optWord d o, v]
  | .word w => [w]

/-- A word item must not be an option; a value of a numeric option must be in the range of `int`. -/
def Item.Ok : Item → Prop
  | .set _ o v => (o = .samplerate ∨ o = .hopLength ∨ o = .windowLength) → atoi v ≠ none
  | .word w => ∀ d o, w ≠ optWord d o

/-- The value last given to an option. -/
def lastValue (o : Opt) : List Item → Option (List Char)
  | [] => none
  | .set _ o' v :: rest => (lastValue o rest).or (if o' = o then some v else none)
  | .word _ :: rest => lastValue o rest

/-- Specification: a number option, with its default. -/
def numberOf (o : Opt) (default : Int) (items : List Item) : Int := ((lastValue o items).bind atoi).getD default

theorem find_name (o : Opt) : findOpt o.name = some o := by cases o <;> decide +kernel

theorem optName_word (d : Bool) (o : Opt) : optName (optWord d o) = some o.name := by cases d <;> cases o <;> rfl

theorem findOpt_some {n : List Char} {o : Opt} (h : findOpt n = some o) : n = o.name := by
  unfold findOpt at h
  rw [Option.map_eq_some_iff] at h
  obtain ⟨q, hq, rfl⟩ := h
  have h1 := List.find?_some hq
  have h2 := List.mem_of_find?_eq_some hq
  have h3 : q.1 = n := by simpa using h1
  rw [← h3]
  clear h1 h3 hq
  simp only [optNames, List.mem_cons, List.not_mem_nil, or_false] at h2
  rcases h2 with h | h | h | h | h <;> (subst h; rfl)

theorem optName_some {w n : List Char} (h : optName w = some n) : w = ['-', '-'] ++ n ∨ w = ['-'] ++ n := by
  unfold optName at h
  split at h
  · cases h; exact Or.inl rfl
  · cases h; exact Or.inr rfl
  · cases h

/-- A word is recognised as an option exactly if it is an option word. -/
theorem recognised_iff (w : List Char) (o : Opt) : (optName w).bind findOpt = some o ↔ ∃ d, w = optWord d o := by
  constructor
  · intro h
    rw [Option.bind_eq_some_iff] at h
    obtain ⟨n, h1, h2⟩ := h
    have := findOpt_some h2
    subst this
    rcases optName_some h1 with h | h
    · exact ⟨true, h⟩
    · exact ⟨false, h⟩
  · rintro ⟨d, rfl⟩
    rw [optName_word, Option.bind_some, find_name]

theorem optParse_word (w : List Char) (rest : List (List Char)) (c : Config) (h : ∀ d o, w ≠ optWord d o) : optParse (w :: rest) c = optParse rest c := by
  rw [optParse]
  have : (optName w).bind findOpt = none := by
    rw [Option.eq_none_iff_forall_ne_some]
    intro o ho
    obtain ⟨d, hd⟩ := (recognised_iff w o).1 ho
    exact h d o hd
  rw [this]

theorem optParse_set (d : Bool) (o : Opt) (v : List Char) (rest : List (List Char)) (c : Config) :
    optParse (optWord d o :: v :: rest) c = (setOpt o v c).bind (optParse rest) := by
  rw [optParse, (recognised_iff _ o).2 ⟨d, rfl⟩]

theorem optParse_missing (d : Bool) (o : Opt) (c : Config) : optParse [optWord d o] c = some (-1, c) := by
  rw [optParse, (recognised_iff _ o).2 ⟨d, rfl⟩]

/-- Specification: the configuration described by a list of items, starting from `c`. -/
def configOf (c : Config) (items : List Item) : Config :=
  { input := (lastValue .input items).or c.input, output := (lastValue .output items).or c.output,
    samplerate := numberOf .samplerate c.samplerate items, hopLength := numberOf .hopLength c.hopLength items, windowLength := numberOf .windowLength c.windowLength items }

theorem last_or (o : Opt) (d : Bool) (o' : Opt) (v : List Char) (items : List Item) :
    lastValue o (.set d o' v :: items) = (lastValue o items).or (if o' = o then some v else none) := rfl

theorem lastValue_mem (o : Opt) (items : List Item) (v : List Char) (h : lastValue o items = some v) : ∃ d, Item.set d o v ∈ items := by
  induction items with
  | nil => cases h
  | cons x xs ih =>
    cases x with
    | word w => obtain ⟨d, hd⟩ := ih h; exact ⟨d, List.mem_cons_of_mem _ hd⟩
    | set d o' v' =>
      rw [last_or, Option.or_eq_some_iff] at h
      rcases h with h | ⟨_, h⟩
      · obtain ⟨d, hd⟩ := ih h; exact ⟨d, List.mem_cons_of_mem _ hd⟩
      · split at h
        · rename_i e; cases h; subst e; exact ⟨d, List.mem_cons_self ..⟩
        · cases h

theorem optParse_items (items : List Item) (hi : ∀ x ∈ items, x.Ok) (rest : List (List Char)) (c : Config) :
    optParse (items.flatMap Item.args ++ rest) c = optParse rest (configOf c items) := by
  induction items generalizing c with
  | nil => rfl
  | cons x xs ih =>
    have ih := fun c => ih (fun y hy => hi y (List.mem_cons_of_mem _ hy)) c
    have hx := hi x (List.mem_cons_self ..)
    have hxs : ∀ o v, lastValue o xs = some v → (o = .samplerate ∨ o = .hopLength ∨ o = .windowLength) → ∃ n, atoi v = some n := by
      intro o v hv ho
      obtain ⟨d, hd⟩ := lastValue_mem o xs v hv
      exact Option.ne_none_iff_exists'.1 (hi _ (List.mem_cons_of_mem _ hd) ho)
    cases x with
    | word w =>
      simp only [List.flatMap_cons, Item.args, List.cons_append, List.nil_append]
      rw [optParse_word w _ _ hx, ih]
      rfl
    | set d o v =>
      simp only [List.flatMap_cons, Item.args, List.cons_append, List.nil_append]
      rw [optParse_set]
      have key : ∃ c', setOpt o v c = some c' ∧ configOf c' xs = configOf c (.set d o v :: xs) := by
        cases o with
        | input =>
          refine ⟨_, rfl, ?_⟩
          simp [configOf, numberOf, last_or]
        | output =>
          refine ⟨_, rfl, ?_⟩
          simp [configOf, numberOf, last_or]
        | samplerate =>
          obtain ⟨n, hn⟩ := Option.ne_none_iff_exists'.1 (hx (by simp))
          refine ⟨{ c with samplerate := n }, by simp [setOpt, hn], ?_⟩
          have : numberOf .samplerate n xs = numberOf .samplerate c.samplerate (.set d .samplerate v :: xs) := by
            unfold numberOf
            rw [last_or, if_pos rfl]
            cases hl : lastValue .samplerate xs with
            | none => simp [hn]
            | some u => obtain ⟨m, hm⟩ := hxs _ u hl (by simp); simp [hm]
          unfold configOf
          simp only []
          rw [this]
          congr 1 <;> simp [numberOf, last_or]
        | hopLength =>
          obtain ⟨n, hn⟩ := Option.ne_none_iff_exists'.1 (hx (by simp))
          refine ⟨{ c with hopLength := n }, by simp [setOpt, hn], ?_⟩
          have : numberOf .hopLength n xs = numberOf .hopLength c.hopLength (.set d .hopLength v :: xs) := by
            unfold numberOf
            rw [last_or, if_pos rfl]
            cases hl : lastValue .hopLength xs with
            | none => simp [hn]
            | some u => obtain ⟨m, hm⟩ := hxs _ u hl (by simp); simp [hm]
          unfold configOf
          simp only []
          rw [this]
          congr 1 <;> simp [numberOf, last_or]
        | windowLength =>
          obtain ⟨n, hn⟩ := Option.ne_none_iff_exists'.1 (hx (by simp))
          refine ⟨{ c with windowLength := n }, by simp [setOpt, hn], ?_⟩
          have : numberOf .windowLength n xs = numberOf .windowLength c.windowLength (.set d .windowLength v :: xs) := by
            unfold numberOf
            rw [last_or, if_pos rfl]
            cases hl : lastValue .windowLength xs with
            | none => simp [hn]
            | some u => obtain ⟨m, hm⟩ := hxs _ u hl (by simp); simp [hm]
          unfold configOf
          simp only []
          rw [this]
          congr 1 <;> simp [numberOf, last_or]
      obtain ⟨c', h1, h2⟩ := key
      rw [h1, Option.bind_some, ih, h2]

/-- **C108.** Any sequence of options with values and of words that are no options is accepted: each option has the value given last (also if the value itself looks like an option), options not
given keep their defaults 50 (numbers) or nothing (file names), other words have no effect. -/
theorem C108_options (items : List Item) (hi : ∀ x ∈ items, x.Ok) :
    ∃ c, optParse (items.flatMap Item.args) defaults = some (0, c) ∧
      c.input = lastValue .input items ∧ c.output = lastValue .output items ∧
      c.samplerate = numberOf .samplerate 50 items ∧ c.hopLength = numberOf .hopLength 50 items ∧ c.windowLength = numberOf .windowLength 50 items := by
  have := optParse_items items hi [] defaults
  rw [List.append_nil, optParse] at this
  refine ⟨_, this, ?_, ?_, rfl, rfl, rfl⟩ <;> simp [configOf, defaults]

/-- **C108 (missing value).** If the last argument is an option without its value, parsing fails and the program exits with status 1 without touching any file. -/
theorem C108_missing_value (items : List Item) (hi : ∀ x ∈ items, x.Ok) (d : Bool) (o : Opt) :
    (∃ c, optParse (items.flatMap Item.args ++ [optWord d o]) defaults = some (-1, c)) ∧
    ∀ env coef files writable pre0 junk fuel, main env coef files writable pre0 junk fuel (items.flatMap Item.args ++ [optWord d o]) = some (1, none) := by
  have h := optParse_items items hi [optWord d o] defaults
  rw [optParse_missing] at h
  refine ⟨⟨_, h⟩, ?_⟩
  intro env coef files writable pre0 junk fuel
  unfold main
  rw [h, Option.bind_some]
  simp

/-- **C108 (coverage).** Every argument list is of one of the two forms above. -/
theorem C108_every_list (args : List (List Char)) :
    ∃ items : List Item, (∀ x ∈ items, ∀ w, x = .word w → ∀ d o, w ≠ optWord d o) ∧
      (args = items.flatMap Item.args ∨ ∃ d o, args = items.flatMap Item.args ++ [optWord d o]) := by
  induction h : args.length using Nat.strong_induction_on generalizing args with
  | _ n ih =>
    cases args with
    | nil => exact ⟨[], by simp, Or.inl rfl⟩
    | cons a rest =>
      simp only [List.length_cons] at h
      by_cases hr : ∃ d o, a = optWord d o
      · obtain ⟨d, o, rfl⟩ := hr
        cases rest with
        | nil => exact ⟨[], by simp, Or.inr ⟨d, o, rfl⟩⟩
        | cons v rest =>
          simp only [List.length_cons] at h
          obtain ⟨items, h1, h2⟩ := ih rest.length (by omega) rest rfl
          refine ⟨.set d o v :: items, ?_, ?_⟩
          · intro x hx w hw
            rcases List.mem_cons.1 hx with rfl | hx
            · cases hw
            · exact h1 x hx w hw
          · rcases h2 with h2 | ⟨d', o', h2⟩
            · left; rw [h2]; rfl
            · right; exact ⟨d', o', by rw [h2]; rfl⟩
      · obtain ⟨items, h1, h2⟩ := ih rest.length (by omega) rest rfl
        refine ⟨.word a :: items, ?_, ?_⟩
        · intro x hx w hw d o
          rcases List.mem_cons.1 hx with rfl | hx
          · cases hw; exact fun e => hr ⟨d, o, e⟩
          · exact h1 x hx w hw d o
        · rcases h2 with h2 | ⟨d', o', h2⟩
          · left; rw [h2]; rfl
          · right; exact ⟨d', o', by rw [h2]; rfl⟩

/-- **C108 (numbers).** The decimal text of any `int` is read as that number, whatever non-digit follows. -/
theorem C108_number (z : Int) (h1 : -2147483648 ≤ z) (h2 : z ≤ 2147483647) (tail : List Char) (ht : ∀ c, tail.head? = some c → c.isDigit = false) :
    atoi (showInt z ++ tail) = some z := by
  have digits : ∀ n : Nat, ((showNat n ++ tail).takeWhile Char.isDigit) = showNat n := by
    intro n
    rw [List.takeWhile_append_of_pos (fun c hc => showNat_digits hc)]
    cases tail with
    | nil => simp
    | cons c t => rw [List.takeWhile_cons_of_neg (by simp [ht c rfl]), List.append_nil]
  have val : ∀ n : Nat, Nat.ofDigitChars 10 (showNat n) 0 = n := fun n => Nat.ofDigitChars_ten_toDigits
  unfold atoi
  unfold showInt
  by_cases hz : z < 0
  · rw [if_pos hz]
    have e : List.dropWhile isSpaceC ('-' :: showNat (-z).toNat ++ tail) = '-' :: (showNat (-z).toNat ++ tail) := by
      rw [List.cons_append, List.dropWhile_cons_of_neg (by decide)]
    simp only [e, signedDigits, digits, val]
    have : -(((-z).toNat : Nat) : Int) = z := by omega
    rw [this, if_pos ⟨h1, h2⟩]
  · rw [if_neg hz]
    obtain ⟨c, t, hc⟩ : ∃ c t, showNat z.toNat = c :: t := List.exists_cons_of_ne_nil (showNat_ne_nil _)
    have hd : c.isDigit = true := showNat_digits (n := z.toNat) (by rw [hc]; simp)
    have hs : isSpaceC c = false := by
      have key : ∀ x : Char, isSpaceC x = true → x.isDigit = false := by
        intro x hx
        unfold isSpaceC at hx
        simp only [Bool.or_eq_true, beq_iff_eq] at hx
        rcases hx with ((((h | h) | h) | h) | h) | h <;> subst h <;> rfl
      by_contra hx
      rw [key c (by simpa using hx)] at hd
      cases hd
    have e : List.dropWhile isSpaceC (showNat z.toNat ++ tail) = showNat z.toNat ++ tail := by
      rw [hc, List.cons_append, List.dropWhile_cons_of_neg (by simp [hs])]
    simp only [e]
    have hm : c ≠ '-' := by rintro rfl; revert hd; decide
    have hp : c ≠ '+' := by rintro rfl; revert hd; decide
    have e2 : signedDigits (showNat z.toNat ++ tail) = ((Nat.ofDigitChars 10 ((showNat z.toNat ++ tail).takeWhile Char.isDigit) 0 : Nat) : Int) := by
      unfold signedDigits
      split
      · rename_i h; rw [hc] at h; cases h; exact absurd rfl hm
      · rename_i h; rw [hc] at h; cases h; exact absurd rfl hp
      · rfl
    rw [e2, digits, val]
    have : ((z.toNat : Nat) : Int) = z := by omega
    rw [this, if_pos ⟨h1, h2⟩]

/-- **C108, refuted in part.** The file names have no default: without `--input` the program calls `fopen(NULL)`, which is undefined. -/
theorem C108_no_input_refuted (items : List Item) (hi : ∀ x ∈ items, x.Ok) (h : lastValue .input items = none) :
    ∀ env coef files writable pre0 junk fuel, main env coef files writable pre0 junk fuel (items.flatMap Item.args) = none := by
  intro env coef files writable pre0 junk fuel
  obtain ⟨c, h1, h2, _⟩ := C108_options items hi
  unfold main
  rw [h1, Option.bind_some]
  simp only [ne_eq, not_true_eq_false, if_false]
  rw [h2, h]
  rfl

/-- Non-vacuity: a command line with an option given twice, a value that looks like an option, one dash and two dashes, and ignored words. -/
example : optParse ["--input".toList, "a.csv".toList, "-window_length".toList, "64".toList, "verbose".toList, "--hop".toList, "--output".toList, "--input".toList, "--window_length".toList, " 128x".toList] defaults
    = some (0, { input := some "a.csv".toList, output := some "--input".toList, samplerate := 50, hopLength := 50, windowLength := 128 }) := by decide +kernel

end Emlearn.Motion
