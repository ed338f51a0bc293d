/- C123: `get_program_size` and `check_build_tools` of `emlearn/evaluate/size.py`, for every behaviour of the toolchain. -/
import Verif.Evaluate.Build
import Mathlib.Tactic.Tauto
namespace Emlearn.SizeTool

/-! ### Specification -/

/-- A text that neither make nor the shell changes or splits. -/
def Plain (s : Str) : Prop := s ≠ [] ∧ ∀ c ∈ s, special c = false ∧ blank c = false

/-- The options that select the processor: on ARM for the four known types only. -/
inductive CpuOptions : Platform → Str → List Str → Prop
  | avr (mcu : Str) : CpuOptions .avr mcu ["-mmcu=".toList ++ mcu]
  | m0 : CpuOptions .arm "Cortex-M0".toList ["-mthumb".toList, "-mcpu=cortex-m0".toList]
  | m0plus : CpuOptions .arm "Cortex-M0+".toList ["-mthumb".toList, "-mcpu=cortex-m0plus".toList]
  | m3 : CpuOptions .arm "Cortex-M3".toList ["-mthumb".toList, "-mcpu=cortex-m3".toList]
  | m4f : CpuOptions .arm "Cortex-M4F".toList ["-mthumb".toList, "-mcpu=cortex-m4".toList, "-mfpu=fpv4-sp-d16".toList, "-mfloat-abi=hard".toList]

/-- The compiler run on the program, with every include directory in its place. -/
def compileArgs (p : Platform) (cpu : List Str) (dirs : List Str) : List Str :=
  match p with
  | .avr => ["avr-gcc".toList, "-Wall".toList, "-Os".toList, "-DF_CPU=16000000UL".toList] ++ cpu ++ dirs.map (fun d => "-I".toList ++ d) ++ ["-c".toList, "-o".toList, "prog.o".toList, "prog.c".toList]
  | .arm => ["arm-none-eabi-gcc".toList, "-Wall".toList, "-Os".toList] ++ cpu ++ dirs.map (fun d => "-I".toList ++ d) ++ ["-c".toList, "-o".toList, "prog.o".toList, "prog.c".toList]

def linkArgs (p : Platform) (cpu : List Str) : List Str :=
  match p with
  | .avr => ["avr-gcc".toList] ++ cpu ++ ["-o".toList, "out.elf".toList, "prog.o".toList]
  | .arm => ["arm-none-eabi-gcc".toList, "--specs=nosys.specs".toList] ++ cpu ++ ["-o".toList, "out.elf".toList, "prog.o".toList]

def hexArgs (p : Platform) : List Str :=
  match p with
  | .avr => ["avr-objcopy".toList, "-O".toList, "ihex".toList, "-R".toList, ".eeprom".toList, "out.elf".toList, "out.hex".toList]
  | .arm => ["arm-none-eabi-objcopy".toList, "-O".toList, "ihex".toList, "-R".toList, ".eeprom".toList, "out.elf".toList, "out.hex".toList]

def sizeArgs (w : World) (p : Platform) : List Str :=
  match p with
  | .avr => ["avr-size".toList, "-A".toList, w.tmp ++ "/out.elf".toList]
  | .arm => ["arm-none-eabi-size".toList, "-A".toList, w.tmp ++ "/out.elf".toList]

/-- The command line can be started and ends with exit code 0. -/
def Runs (w : World) (code : Str) (argv : List Str) : Prop := (∃ prog args, argv = prog :: args ∧ w.installed prog = true) ∧ w.succeeds code argv = true

/-- The programs run for a platform once make is started: compiler, linker, conversion to hex. -/
def commands (p : Platform) (cpu dirs : List Str) : List (List Str) := [compileArgs p cpu dirs, linkArgs p cpu, hexArgs p]

/-! ### Words of a command line -/

theorem wordsFrom_plain (a : Str) (ha : ∀ c ∈ a, blank c = false) : ∀ cur t, wordsFrom cur (a ++ t) = wordsFrom (a.reverse ++ cur) t := by
  induction a with
  | nil => simp
  | cons c a ih =>
    intro cur t
    have hc := ha c (by simp)
    simp only [List.cons_append, wordsFrom, hc, Bool.false_eq_true, if_false]
    rw [ih (fun d hd => ha d (by simp [hd]))]
    simp

theorem words_cons {a : Str} (h0 : a ≠ []) (ha : ∀ c ∈ a, blank c = false) (t : Str) : words (a ++ ' ' :: t) = a :: words t := by
  unfold words
  rw [wordsFrom_plain a ha]
  have : a.reverse ≠ [] := by simpa using h0
  simp [wordsFrom, blank, this]

theorem words_blank (t : Str) : words (' ' :: t) = words t := by
  simp [words, wordsFrom, blank]

theorem words_one {a : Str} (h0 : a ≠ []) (ha : ∀ c ∈ a, blank c = false) : words a = [a] := by
  have := wordsFrom_plain a ha [] []
  unfold words
  simp only [List.append_nil] at this
  rw [this]
  simp [wordsFrom, h0]

theorem words_spaced (l : List Str) (hl : ∀ a ∈ l, a ≠ [] ∧ ∀ c ∈ a, blank c = false) (t : Str) : words (spaced l ++ ' ' :: t) = l ++ words t := by
  induction l with
  | nil => simp [spaced, words_blank]
  | cons a l ih =>
    cases l with
    | nil => rw [spaced, words_cons (hl a (by simp)).1 (hl a (by simp)).2]; rfl
    | cons b l =>
      rw [spaced, List.append_assoc, List.cons_append, words_cons (hl a (by simp)).1 (hl a (by simp)).2, ih (fun x hx => hl x (by simp [hx]))]
      rfl

theorem special_spaced (l : List Str) (hl : ∀ a ∈ l, ∀ c ∈ a, special c = false) : ∀ c ∈ spaced l, special c = false := by
  induction l with
  | nil => simp [spaced]
  | cons a l ih =>
    cases l with
    | nil => exact hl a (by simp)
    | cons b l =>
      intro c hc
      rw [spaced, List.mem_append, List.mem_cons] at hc
      rcases hc with hc | rfl | hc
      · exact hl a (by simp) c hc
      · decide
      · exact ih (fun x hx => hl x (by simp [hx])) c hc

theorem cmdWords_plain (w : World) {line : Str} (h : ∀ c ∈ line, special c = false) : cmdWords w line = words line := by
  unfold cmdWords
  rw [if_neg]
  simp only [List.any_eq_true, not_exists, not_and, Bool.not_eq_true]
  exact h

def Dirs (w : World) (dirs : Option (List Str)) : List Str := dirs.getD [w.include_]

/-- The variable that selects the processor and the options it stands for. -/
def FlagText (p : Platform) (mcu flags : Str) : Prop :=
  match p with
  | .avr => flags = mcu
  | .arm => armFlags mcu = some flags

theorem flagText_of_options {p : Platform} {mcu : Str} {cpu : List Str} (h : CpuOptions p mcu cpu) : ∃ flags, FlagText p mcu flags ∧ (p = .arm → flags = spaced cpu ∧ (∀ a ∈ cpu, Plain a)) := by
  cases h with
  | avr => exact ⟨_, rfl, by simp⟩
  | m0 => exact ⟨spaced ["-mthumb".toList, "-mcpu=cortex-m0".toList], by unfold FlagText; decide, fun _ => ⟨rfl, by unfold Plain; decide⟩⟩
  | m0plus => exact ⟨spaced ["-mthumb".toList, "-mcpu=cortex-m0plus".toList], by unfold FlagText; decide, fun _ => ⟨rfl, by unfold Plain; decide⟩⟩
  | m3 => exact ⟨spaced ["-mthumb".toList, "-mcpu=cortex-m3".toList], by unfold FlagText; decide, fun _ => ⟨rfl, by unfold Plain; decide⟩⟩
  | m4f => exact ⟨spaced ["-mthumb".toList, "-mcpu=cortex-m4".toList, "-mfpu=fpv4-sp-d16".toList, "-mfloat-abi=hard".toList], by unfold FlagText; decide, fun _ => ⟨rfl, by unfold Plain; decide⟩⟩

theorem options_avr {mcu : Str} {cpu : List Str} (h : CpuOptions .avr mcu cpu) : cpu = ["-mmcu=".toList ++ mcu] := by
  cases h; rfl

theorem armFlags_none_iff (mcu : Str) : armFlags mcu = none ↔ ∀ cpu, ¬ CpuOptions .arm mcu cpu := by
  constructor
  · intro h cpu hc
    obtain ⟨f, hf, -⟩ := flagText_of_options hc
    simp only [FlagText] at hf
    rw [h] at hf
    cases hf
  · intro h
    unfold armFlags
    split
    · rename_i e; subst e; exact absurd CpuOptions.m0 (h _)
    split
    · rename_i e; subst e; exact absurd CpuOptions.m0plus (h _)
    split
    · rename_i e; subst e; exact absurd CpuOptions.m3 (h _)
    split
    · rename_i e; subst e; exact absurd CpuOptions.m4f (h _)
    rfl

theorem plain_opt {d pre : Str} (h1 : Plain pre) (h : Plain d) : Plain (pre ++ d) := by
  refine ⟨by simp [h1.1], ?_⟩
  intro c hc
  rcases List.mem_append.1 hc with hc | hc
  · exact h1.2 c hc
  · exact h.2 c hc

theorem plain_split {l : List Str} (h : ∀ a ∈ l, Plain a) : (∀ a ∈ l, a ≠ [] ∧ ∀ c ∈ a, blank c = false) ∧ (∀ a ∈ l, ∀ c ∈ a, special c = false) :=
  ⟨fun a ha => ⟨(h a ha).1, fun c hc => ((h a ha).2 c hc).2⟩, fun a ha c hc => ((h a ha).2 c hc).1⟩

theorem line_words (w : World) (a b c : List Str) (ha : ∀ x ∈ a, Plain x) (hb : ∀ x ∈ b, Plain x) (hc : ∀ x ∈ c, Plain x) (gap : Nat) :
    cmdWords w (spaced a ++ ' ' :: (spaced b ++ ' ' :: (List.replicate gap ' ' ++ spaced c))) = a ++ (b ++ c) := by
  have hs : ∀ x ∈ spaced a ++ ' ' :: (spaced b ++ ' ' :: (List.replicate gap ' ' ++ spaced c)), special x = false := by
    intro x hx
    simp only [List.mem_append, List.mem_cons, List.mem_replicate] at hx
    rcases hx with hx | rfl | hx | rfl | hx | hx
    · exact special_spaced a (plain_split ha).2 x hx
    · decide
    · exact special_spaced b (plain_split hb).2 x hx
    · decide
    · rw [hx.2]; decide
    · exact special_spaced c (plain_split hc).2 x hx
  have hw : ∀ t, words (List.replicate gap ' ' ++ t) = words t := by
    intro t
    induction gap with
    | zero => simp
    | succ n ih => rw [List.replicate_succ, List.cons_append, words_blank]; exact ih (fun x hx => hs x (by
        simp only [List.mem_append, List.mem_cons, List.mem_replicate] at hx ⊢
        tauto))
  have hz : ∀ l : List Str, (∀ x ∈ l, Plain x) → words (spaced l) = l := by
    intro l
    induction l with
    | nil => intro _; rfl
    | cons y l ih =>
      intro h
      cases l with
      | nil => exact words_one (h y (by simp)).1 (fun c hc => ((h y (by simp)).2 c hc).2)
      | cons z l =>
        rw [spaced, words_cons (h y (by simp)).1 (fun c hc => ((h y (by simp)).2 c hc).2), ih (fun x hx => h x (by simp [hx]))]
  rw [cmdWords_plain w hs, words_spaced a (plain_split ha).1, words_spaced b (plain_split hb).1, hw, hz c hc]

instance (s : Str) : Decidable (Plain s) := by unfold Plain; infer_instance

theorem include_plain {dirs : List Str} (h : ∀ d ∈ dirs, Plain d) : ∀ x ∈ dirs.map (fun d => "-I".toList ++ d), Plain x := by
  intro x hx
  obtain ⟨d, hd, rfl⟩ := List.mem_map.1 hx
  exact plain_opt (by decide) (h d hd)

theorem spaced_append (a b : List Str) (ha : a ≠ []) (hb : b ≠ []) : spaced (a ++ b) = spaced a ++ ' ' :: spaced b := by
  induction a with
  | nil => exact absurd rfl ha
  | cons x a ih =>
    cases a with
    | nil =>
      cases b with
      | nil => exact absurd rfl hb
      | cons y b => rfl
    | cons y a =>
      rw [List.cons_append, List.cons_append, spaced, ← List.cons_append, ih (by simp), spaced]
      simp

theorem avr_compile_text (flags extra : Str) : compileLine .avr flags extra =
    spaced ["avr-gcc".toList, "-Wall".toList, "-Os".toList, "-DF_CPU=16000000UL".toList, "-mmcu=".toList ++ flags] ++ ' ' :: (extra ++ ' ' :: (List.replicate 2 ' ' ++ spaced ["-c".toList, "-o".toList, "prog.o".toList, "prog.c".toList])) := by
  have e1 : "-Wall -Os -DF_CPU=16000000UL -mmcu=".toList = "-Wall".toList ++ ' ' :: ("-Os".toList ++ ' ' :: ("-DF_CPU=16000000UL".toList ++ ' ' :: "-mmcu=".toList)) := by decide
  have e2 : "   -c -o prog.o prog.c".toList = ' ' :: (List.replicate 2 ' ' ++ spaced ["-c".toList, "-o".toList, "prog.o".toList, "prog.c".toList]) := by decide
  have aux : ∀ a b c d m t : Str, a ++ ' ' :: ((b ++ ' ' :: (c ++ ' ' :: (d ++ ' ' :: m))) ++ flags ++ ' ' :: extra) ++ ' ' :: t = spaced [a, b, c, d, m ++ flags] ++ ' ' :: (extra ++ ' ' :: t) := by
    intros; simp [spaced]
  have := aux "avr-gcc".toList "-Wall".toList "-Os".toList "-DF_CPU=16000000UL".toList "-mmcu=".toList (List.replicate 2 ' ' ++ spaced ["-c".toList, "-o".toList, "prog.o".toList, "prog.c".toList])
  rewrite [← e1, ← e2] at this
  exact this

theorem arm_compile_text (flags extra : Str) : compileLine .arm flags extra =
    (spaced ["arm-none-eabi-gcc".toList, "-Wall".toList, "-Os".toList] ++ ' ' :: flags) ++ ' ' :: (extra ++ ' ' :: (List.replicate 3 ' ' ++ spaced ["-c".toList, "-o".toList, "prog.o".toList, "prog.c".toList])) := by
  have e1 : "-Wall -Os ".toList = "-Wall".toList ++ ' ' :: ("-Os".toList ++ [' ']) := by decide
  have e2 : "   -c -o prog.o prog.c".toList = List.replicate 3 ' ' ++ spaced ["-c".toList, "-o".toList, "prog.o".toList, "prog.c".toList] := by decide
  have e3 : " ".toList = [' '] := by decide
  have aux : ∀ a b c t : Str, a ++ ' ' :: ((b ++ ' ' :: (c ++ [' '])) ++ flags ++ ' ' :: extra ++ [' ']) ++ t = (spaced [a, b, c] ++ ' ' :: flags) ++ ' ' :: (extra ++ ' ' :: t) := by
    intros; simp [spaced]
  have := aux "arm-none-eabi-gcc".toList "-Wall".toList "-Os".toList (List.replicate 3 ' ' ++ spaced ["-c".toList, "-o".toList, "prog.o".toList, "prog.c".toList])
  rewrite [← e1, ← e2, ← e3] at this
  exact this

theorem avr_link_text (flags : Str) : linkLine .avr flags = spaced ["avr-gcc".toList] ++ ' ' :: (spaced ["-mmcu=".toList ++ flags] ++ ' ' :: (List.replicate 0 ' ' ++ spaced ["-o".toList, "out.elf".toList, "prog.o".toList])) := by
  have e1 : " -mmcu=".toList = ' ' :: "-mmcu=".toList := by decide
  have e2 : " -o out.elf prog.o".toList = ' ' :: (List.replicate 0 ' ' ++ spaced ["-o".toList, "out.elf".toList, "prog.o".toList]) := by decide
  have aux : ∀ a m t : Str, a ++ ' ' :: m ++ flags ++ ' ' :: t = spaced [a] ++ ' ' :: (spaced [m ++ flags] ++ ' ' :: t) := by
    intros; simp [spaced]
  have := aux "avr-gcc".toList "-mmcu=".toList (List.replicate 0 ' ' ++ spaced ["-o".toList, "out.elf".toList, "prog.o".toList])
  rewrite [← e1, ← e2] at this
  exact this

theorem arm_link_text (flags : Str) : linkLine .arm flags = spaced ["arm-none-eabi-gcc".toList, "--specs=nosys.specs".toList] ++ ' ' :: (flags ++ ' ' :: (List.replicate 0 ' ' ++ spaced ["-o".toList, "out.elf".toList, "prog.o".toList])) := by
  have e1 : " --specs=nosys.specs ".toList = ' ' :: ("--specs=nosys.specs".toList ++ [' ']) := by decide
  have e2 : " -o out.elf prog.o".toList = ' ' :: (List.replicate 0 ' ' ++ spaced ["-o".toList, "out.elf".toList, "prog.o".toList]) := by decide
  have aux : ∀ a b t : Str, a ++ ' ' :: (b ++ [' ']) ++ flags ++ ' ' :: t = spaced [a, b] ++ ' ' :: (flags ++ ' ' :: t) := by
    intros; simp [spaced]
  have := aux "arm-none-eabi-gcc".toList "--specs=nosys.specs".toList (List.replicate 0 ' ' ++ spaced ["-o".toList, "out.elf".toList, "prog.o".toList])
  rewrite [← e1, ← e2] at this
  exact this

theorem compile_words (w : World) {p : Platform} {mcu : Str} {cpu : List Str} {flags : Str} (h : CpuOptions p mcu cpu) (hf : FlagText p mcu flags) (hm : Plain mcu) {dirs : List Str} (hd : ∀ d ∈ dirs, Plain d) :
    cmdWords w (compileLine p flags (spaced (dirs.map fun d => "-I".toList ++ d))) = compileArgs p cpu dirs := by
  cases p with
  | avr =>
    have h1 := options_avr h
    simp only [FlagText] at hf
    subst hf h1
    have e : compileLine .avr flags (spaced (dirs.map fun d => "-I".toList ++ d)) =
        spaced ["avr-gcc".toList, "-Wall".toList, "-Os".toList, "-DF_CPU=16000000UL".toList, "-mmcu=".toList ++ flags] ++ ' ' :: (spaced (dirs.map fun d => "-I".toList ++ d) ++ ' ' :: (List.replicate 2 ' ' ++ spaced ["-c".toList, "-o".toList, "prog.o".toList, "prog.c".toList])) := by
      exact avr_compile_text flags _
    rw [e, line_words w _ _ _ _ (include_plain hd) (by decide)]
    · simp only [compileArgs, List.append_assoc, List.cons_append, List.nil_append]
    · intro x hx
      simp only [List.mem_cons, List.not_mem_nil, or_false] at hx
      rcases hx with rfl | rfl | rfl | rfl | rfl
      · decide
      · decide
      · decide
      · decide
      · exact plain_opt (by decide) hm
  | arm =>
    obtain ⟨f', hf', h2⟩ := flagText_of_options h
    simp only [FlagText] at hf hf'
    rw [hf] at hf'
    cases hf'
    obtain ⟨h3, h4⟩ := h2 rfl
    have hne : cpu ≠ [] := by cases h <;> simp
    have e : compileLine .arm flags (spaced (dirs.map fun d => "-I".toList ++ d)) =
        spaced (["arm-none-eabi-gcc".toList, "-Wall".toList, "-Os".toList] ++ cpu) ++ ' ' :: (spaced (dirs.map fun d => "-I".toList ++ d) ++ ' ' :: (List.replicate 3 ' ' ++ spaced ["-c".toList, "-o".toList, "prog.o".toList, "prog.c".toList])) := by
      rewrite [spaced_append _ _ (by simp) hne, ← h3]
      exact arm_compile_text _ _
    rw [e, line_words w _ _ _ _ (include_plain hd) (by decide)]
    · simp only [compileArgs, List.append_assoc, List.cons_append, List.nil_append]
    · intro x hx
      rcases List.mem_append.1 hx with hx | hx
      · exact (by decide : ∀ x ∈ ["arm-none-eabi-gcc".toList, "-Wall".toList, "-Os".toList], Plain x) x hx
      · exact h4 x hx

theorem link_words (w : World) {p : Platform} {mcu : Str} {cpu : List Str} {flags : Str} (h : CpuOptions p mcu cpu) (hf : FlagText p mcu flags) (hm : Plain mcu) :
    cmdWords w (linkLine p flags) = linkArgs p cpu := by
  cases p with
  | avr =>
    have h1 := options_avr h
    simp only [FlagText] at hf
    subst hf h1
    have e : linkLine .avr flags = spaced ["avr-gcc".toList] ++ ' ' :: (spaced ["-mmcu=".toList ++ flags] ++ ' ' :: (List.replicate 0 ' ' ++ spaced ["-o".toList, "out.elf".toList, "prog.o".toList])) := by
      exact avr_link_text flags
    rw [e, line_words w _ _ _ (by decide) _ (by decide)]
    · simp only [linkArgs, List.append_assoc, List.cons_append, List.nil_append]
    · intro x hx
      simp only [List.mem_cons, List.not_mem_nil, or_false] at hx
      subst hx
      exact plain_opt (by decide) hm
  | arm =>
    obtain ⟨f', hf', h2⟩ := flagText_of_options h
    simp only [FlagText] at hf hf'
    rw [hf] at hf'
    cases hf'
    obtain ⟨h3, h4⟩ := h2 rfl
    have e : linkLine .arm flags = spaced ["arm-none-eabi-gcc".toList, "--specs=nosys.specs".toList] ++ ' ' :: (spaced cpu ++ ' ' :: (List.replicate 0 ' ' ++ spaced ["-o".toList, "out.elf".toList, "prog.o".toList])) := by
      rewrite [← h3]
      exact arm_link_text flags
    rw [e, line_words w _ _ _ (by decide) h4 (by decide)]
    simp only [linkArgs, List.append_assoc, List.cons_append, List.nil_append]

theorem hex_words (w : World) (p : Platform) : cmdWords w (hexLine p) = hexArgs p := by
  cases p
  · rw [cmdWords_plain w (by decide)]; decide
  · rw [cmdWords_plain w (by decide)]; decide

/-! ### What make does -/

theorem runRecipe_spec (w : World) (code : Str) {lines : List Str} {cmds : List (List Str)} (h : List.Forall₂ (fun l c => cmdWords w l = c ∧ c ≠ []) lines cmds) :
    ((runRecipe w code lines).1 = true ↔ ∀ c ∈ cmds, Runs w code c) ∧ (∃ n, (runRecipe w code lines).2 = (cmds.take n).map .exec) ∧
    ((runRecipe w code lines).1 = true → (runRecipe w code lines).2 = cmds.map .exec) := by
  induction h with
  | nil => exact ⟨by simp [runRecipe], ⟨0, by simp [runRecipe]⟩, by simp [runRecipe]⟩
  | @cons l c ls cs hlc _ ih =>
    obtain ⟨hc, hne⟩ := hlc
    obtain ⟨i1, ⟨n, i2⟩, i3⟩ := ih
    cases hcc : c with
    | nil => exact absurd hcc hne
    | cons prog args =>
      rw [hcc] at hc
      have hr : Runs w code (prog :: args) ↔ w.installed prog = true ∧ w.succeeds code (prog :: args) = true := by
        unfold Runs
        constructor
        · rintro ⟨⟨p', a', e, hi⟩, hs⟩
          cases e
          exact ⟨hi, hs⟩
        · rintro ⟨hi, hs⟩
          exact ⟨⟨_, _, rfl, hi⟩, hs⟩
      simp only [runRecipe, hc]
      by_cases hi : w.installed prog = true
      · by_cases hs : w.succeeds code (prog :: args) = true
        · simp only [hi, hs, if_true]
          refine ⟨?_, ⟨n + 1, by simp [i2]⟩, fun h => by simp [i3 h]⟩
          rw [i1, List.forall_mem_cons, hr]
          tauto
        · simp only [hi, hs, if_true]
          refine ⟨?_, ⟨1, by simp⟩, by simp⟩
          simp only [Bool.false_eq_true, if_false, false_iff, List.forall_mem_cons, hr]
          tauto
      · simp only [hi]
        refine ⟨?_, ⟨0, by simp⟩, by simp⟩
        simp only [Bool.false_eq_true, if_false, false_iff, List.forall_mem_cons, hr]
        tauto

theorem args_ne {p : Platform} {cpu dirs : List Str} : compileArgs p cpu dirs ≠ [] ∧ linkArgs p cpu ≠ [] ∧ hexArgs p ≠ [] := by
  cases p <;> simp [compileArgs, linkArgs, hexArgs]

theorem recipe_words (w : World) {p : Platform} {mcu : Str} {cpu : List Str} {flags : Str} (h : CpuOptions p mcu cpu) (hf : FlagText p mcu flags) (hm : Plain mcu) {dirs : List Str} (hd : ∀ d ∈ dirs, Plain d) :
    List.Forall₂ (fun l c => cmdWords w l = c ∧ c ≠ []) (recipe p flags (spaced (dirs.map fun d => "-I".toList ++ d))) (commands p cpu dirs) :=
  .cons ⟨compile_words w h hf hm hd, args_ne.1⟩ (.cons ⟨link_words w h hf hm, (args_ne (dirs := dirs)).2.1⟩ (.cons ⟨hex_words w p, (args_ne (cpu := cpu) (dirs := dirs)).2.2⟩ .nil))

/-! ### The property -/

theorem platformOf_none (platform : Str) : platformOf platform = none ↔ platform ≠ "avr".toList ∧ platform ≠ "arm".toList := by
  unfold platformOf
  split
  · simp_all
  · split <;> simp_all

/-- The name of a platform. -/
def platformName : Platform → Str
  | .avr => "avr".toList
  | .arm => "arm".toList

theorem platformOf_name (p : Platform) : platformOf (platformName p) = some p := by cases p <;> decide

/-- A platform other than `avr` and `arm` is refused before anything is done, by both functions. -/
theorem C123_platform (w : World) (order : List Str → List Str) (code platform mcu : Str) (dirs : Option (List Str)) (h1 : platform ≠ "avr".toList) (h2 : platform ≠ "arm".toList) :
    (∃ msg, getProgramSize w code platform mcu dirs = (.error (.valueError msg), [])) ∧ ∃ msg, checkBuildTools w order platform = .error (.valueError msg) := by
  have := (platformOf_none platform).2 ⟨h1, h2⟩
  exact ⟨⟨_, by simp only [getProgramSize, this]; rfl⟩, ⟨_, by simp only [checkBuildTools, this]; rfl⟩⟩

/-- On ARM a processor type other than the four known ones is refused: no program is run. -/
theorem C123_processor (w : World) (code mcu : Str) (dirs : Option (List Str)) (h : ∀ cpu, ¬ CpuOptions .arm mcu cpu) (hm : w.makefileExists .arm = true) :
    (∃ msg, (getProgramSize w code "arm".toList mcu dirs).1 = .error (.valueError msg)) ∧ ∀ argv, Event.exec argv ∉ (getProgramSize w code "arm".toList mcu dirs).2 := by
  have h1 := (armFlags_none_iff mcu).2 h
  have h2 : platformOf "arm".toList = some .arm := by decide
  have e : getProgramSize w code "arm".toList mcu dirs = (.error (.valueError (mcuMessage mcu)), [.mkTemp, .write "prog.c".toList code, .rmTemp]) := by
    simp only [getProgramSize, h2, inTemp, build, hm, h1, if_true]
    rfl
  rw [e]
  refine ⟨⟨_, rfl⟩, ?_⟩
  intro argv
  simp

/-- In every case the temporary directory is removed, as the last thing, if it was made. -/
theorem C123_cleanup (w : World) (code platform mcu : Str) (dirs : Option (List Str)) :
    (getProgramSize w code platform mcu dirs).2 = [] ∨ ∃ l, (getProgramSize w code platform mcu dirs).2 = .mkTemp :: l ++ [.rmTemp] ∧ Event.mkTemp ∉ l ∧ Event.rmTemp ∉ l := by
  have hrr : ∀ lines, Event.mkTemp ∉ (runRecipe w code lines).2 ∧ Event.rmTemp ∉ (runRecipe w code lines).2 := by
    intro lines
    induction lines with
    | nil => simp [runRecipe]
    | cons l ls ih =>
      simp only [runRecipe]
      split
      · exact ih
      · split
        · split
          · simpa using ih
          · simp
        · simp
  have hmk : ∀ p flags extra, Event.mkTemp ∉ (runMake w code p flags extra).2 ∧ Event.rmTemp ∉ (runMake w code p flags extra).2 := by
    intro p flags extra
    have := hrr (recipe p flags extra)
    unfold runMake
    split
    · split <;> simpa using this
    · simp
  have hb : ∀ p extra, Event.mkTemp ∉ (build w code mcu p extra).2 ∧ Event.rmTemp ∉ (build w code mcu p extra).2 := by
    intro p extra
    unfold build
    split
    · cases p with
      | avr => simpa using hmk .avr mcu extra
      | arm =>
        cases armFlags mcu with
        | none => simp
        | some f => simpa using hmk .arm f extra
    · simp
  have hs : ∀ p elf, Event.mkTemp ∉ (runSize w code p elf).2 ∧ Event.rmTemp ∉ (runSize w code p elf).2 := by
    intro p elf
    unfold runSize
    split
    · split <;> simp
    · simp
  unfold getProgramSize
  cases platformOf platform with
  | none => exact .inl rfl
  | some p =>
    refine .inr ⟨_, rfl, ?_⟩
    unfold inTemp
    split
    · exact hb p _
    · simp only [List.mem_append]
      have := hb p (includeFlags w dirs)
      refine ⟨?_, ?_⟩
      · rintro (h | h)
        · exact this.1 h
        · exact (hs p _).1 h
      · rintro (h | h)
        · exact this.2 h
        · exact (hs p _).2 h

/-- All that a complete run does between making and removing the temporary directory: the program is written, make is called, which compiles it with every include directory, links it and converts it, and the size of the result
is asked for. -/
def fullRun (w : World) (code : Str) (p : Platform) (flags : Str) (cpu dirs : List Str) : List Event :=
  [.write "prog.c".toList code, .exec (makeArgs w p flags (spaced (dirs.map fun d => "-I".toList ++ d)))] ++ (commands p cpu dirs).map .exec ++ [.exec (sizeArgs w p)]

theorem sizeArgs_eq (w : World) (p : Platform) : [sizeOf p, "-A".toList, elfPath w] = sizeArgs w p := by cases p <;> rfl

theorem build_eq (w : World) (code mcu : Str) (p : Platform) (extra flags : Str) (hf : FlagText p mcu flags) (hmf : w.makefileExists p = true) :
    build w code mcu p extra = ((runMake w code p flags extra).1, .write "prog.c".toList code :: (runMake w code p flags extra).2) := by
  cases p with
  | avr =>
    simp only [FlagText] at hf
    subst hf
    simp only [build, hmf, if_true]
  | arm =>
    simp only [FlagText] at hf
    simp only [build, hmf, if_true, hf]

theorem build_none (w : World) (code mcu : Str) (p : Platform) (extra : Str) (hmf : w.makefileExists p = false) : build w code mcu p extra = (.error .assertion, []) := by
  simp [build, hmf]

/-- What a call returns, and what it has done, for every behaviour of the toolchain: a size is returned exactly if the makefile is there, make, the compiler, the linker, the conversion and the size program all can be started and end
with exit code 0, the linked file is there and the output of the size program can be read; it is then the size read from that output. Whatever happens, what has been done is the beginning of the complete run. -/
theorem C123_run_partial (w : World) (code mcu : Str) (p : Platform) (dirs : Option (List Str)) (cpu : List Str) (hc : CpuOptions p mcu cpu) (hm : Plain mcu) (hd : ∀ d ∈ Dirs w dirs, Plain d) :
    ∃ flags, FlagText p mcu flags ∧
    (∀ r, (getProgramSize w code (platformName p) mcu dirs).1 = .ok r ↔
      w.makefileExists p = true ∧ w.installed "make".toList = true ∧ (∀ c ∈ commands p cpu (Dirs w dirs), Runs w code c) ∧ w.elfExists code = true ∧ Runs w code (sizeArgs w p) ∧
        Size.sizes (w.output code (sizeArgs w p)) = some r) ∧
    (∃ n, (getProgramSize w code (platformName p) mcu dirs).2 = .mkTemp :: (fullRun w code p flags cpu (Dirs w dirs)).take n ++ [.rmTemp]) ∧
    (∀ r, (getProgramSize w code (platformName p) mcu dirs).1 = .ok r → (getProgramSize w code (platformName p) mcu dirs).2 = .mkTemp :: fullRun w code p flags cpu (Dirs w dirs) ++ [.rmTemp]) := by
  obtain ⟨flags, hf, -⟩ := flagText_of_options hc
  refine ⟨flags, hf, ?_⟩
  obtain ⟨r1, ⟨n, r2⟩, r3⟩ := runRecipe_spec w code (recipe_words w hc hf hm hd)
  have hex : includeFlags w dirs = spaced ((Dirs w dirs).map fun d => "-I".toList ++ d) := rfl
  have hg : getProgramSize w code (platformName p) mcu dirs = ((inTemp w code mcu p (includeFlags w dirs)).1, .mkTemp :: (inTemp w code mcu p (includeFlags w dirs)).2 ++ [.rmTemp]) := by
    simp only [getProgramSize, platformOf_name]
  rw [hg, hex]
  generalize hE : spaced ((Dirs w dirs).map fun d => "-I".toList ++ d) = extra at *
  have hfull : fullRun w code p flags cpu (Dirs w dirs) = [.write "prog.c".toList code, .exec (makeArgs w p flags extra)] ++ (commands p cpu (Dirs w dirs)).map .exec ++ [.exec (sizeArgs w p)] := by
    unfold fullRun; rw [hE]
  rw [hfull]
  have hsr : Runs w code (sizeArgs w p) ↔ w.installed (sizeOf p) = true ∧ w.succeeds code (sizeArgs w p) = true := by
    rw [← sizeArgs_eq]
    unfold Runs
    constructor
    · rintro ⟨⟨a, b, e, hi⟩, hs⟩
      cases e
      exact ⟨hi, hs⟩
    · rintro ⟨hi, hs⟩
      exact ⟨⟨_, _, rfl, hi⟩, hs⟩
  by_cases hmf : w.makefileExists p = true
  case neg =>
    have hb := build_none w code mcu p extra (by simpa using hmf)
    have e : inTemp w code mcu p extra = (.error .assertion, []) := by simp only [inTemp, hb]
    rw [e]
    exact ⟨by simp [hmf], ⟨0, by simp⟩, by simp⟩
  have hb := build_eq w code mcu p extra flags hf hmf
  by_cases hmk : w.installed "make".toList = true
  case neg =>
    have e : inTemp w code mcu p extra = (.error (.notFound "make".toList), [.write "prog.c".toList code]) := by
      simp only [inTemp, hb, runMake, hmk]
      rfl
    rw [e]
    exact ⟨fun r => ⟨fun h => (by cases h), fun h => absurd h.2.1 hmk⟩, ⟨1, by simp⟩, by simp⟩
  by_cases hrec : (runRecipe w code (recipe p flags extra)).1 = true
  case neg =>
    have e : inTemp w code mcu p extra = (.error (.calledProcess (makeArgs w p flags extra)), .write "prog.c".toList code :: .exec (makeArgs w p flags extra) :: (runRecipe w code (recipe p flags extra)).2) := by
      simp only [inTemp, hb, runMake, hmk, if_true, hrec]
      rfl
    rw [e, r2]
    refine ⟨?_, ⟨min n 3 + 2, ?_⟩, by simp⟩
    · intro r
      rw [← r1]
      simp [hrec]
    · have : (commands p cpu (Dirs w dirs)).length = 3 := rfl
      simp only [List.cons_append, List.nil_append, List.take_succ_cons, List.map_take, List.cons.injEq, true_and, List.append_cancel_right_eq]
      rw [List.take_append_of_le_length (by simp only [List.length_map, this]; omega)]
      by_cases h : n ≤ 3
      · rw [min_eq_left h]
      · rw [min_eq_right (by omega), List.take_of_length_le (by simp [this]; omega), List.take_of_length_le (by simp [this])]
  have r4 := r3 hrec
  by_cases hel : w.elfExists code = true
  case neg =>
    have e : inTemp w code mcu p extra = (.error .assertion, .write "prog.c".toList code :: .exec (makeArgs w p flags extra) :: (runRecipe w code (recipe p flags extra)).2) := by
      simp only [inTemp, hb, runMake, hmk, if_true, hrec, hel]
      rfl
    rw [e, r4]
    refine ⟨by simp [hel], ⟨5, ?_⟩, by simp⟩
    rfl
  have hok : (build w code mcu p extra).1 = .ok (elfPath w) := by simp only [hb, runMake, hmk, if_true, hrec, hel]
  have hev : (build w code mcu p extra).2 = .write "prog.c".toList code :: .exec (makeArgs w p flags extra) :: (commands p cpu (Dirs w dirs)).map .exec := by
    simp only [hb, runMake, hmk, if_true, hrec, r4]
  have e : inTemp w code mcu p extra = ((runSize w code p (elfPath w)).1, (build w code mcu p extra).2 ++ (runSize w code p (elfPath w)).2) := by
    unfold inTemp
    rw [hok]
  rw [e, hev]
  unfold runSize
  rw [sizeArgs_eq]
  by_cases hsi : w.installed (sizeOf p) = true
  case neg =>
    simp only [hsi]
    refine ⟨?_, ⟨5, by simp; rfl⟩, by simp⟩
    intro r
    rw [hsr]
    simp [hsi]
  by_cases hss : w.succeeds code (sizeArgs w p) = true
  case neg =>
    simp only [hsi, hss, if_true]
    refine ⟨?_, ⟨6, rfl⟩, by simp⟩
    intro r
    rw [hsr]
    simp [hss]
  simp only [hsi, hss, if_true]
  refine ⟨?_, ⟨6, rfl⟩, fun _ _ => rfl⟩
  intro r
  rw [hsr, ← r1]
  simp only [hmf, hmk, hrec, hel, hsi, hss, true_and]
  cases Size.sizes (w.output code (sizeArgs w p)) <;> simp

/-- `check_build_tools` reports nothing exactly if make, the compiler and the size program of the platform are all found; otherwise the text names exactly those of the three that are not found, in some order, each once. -/
theorem C123_check (w : World) (order : List Str → List Str) (ho : ∀ l, (order l).Perm l) (p : Platform) :
    (checkBuildTools w order (platformName p) = .ok none ↔ w.installed "make".toList = true ∧ w.installed (compilerOf p) = true ∧ w.installed (sizeOf p) = true) ∧
    ∀ text, checkBuildTools w order (platformName p) = .ok (some text) →
      ∃ names : List Str, text = "Missing programs: ".toList ++ commas names ∧ names.Nodup ∧ names ≠ [] ∧ ∀ n, n ∈ names ↔ (n = "make".toList ∨ n = compilerOf p ∨ n = sizeOf p) ∧ w.installed n = false := by
  have hdd : ["make".toList, compilerOf p, sizeOf p].Nodup := by cases p <;> decide
  have e : checkBuildTools w order (platformName p) = .ok (checkPrograms w order ["make".toList, compilerOf p, sizeOf p]) := by
    simp only [checkBuildTools, platformOf_name]
  have hne : (["make".toList, compilerOf p, sizeOf p].dedup.filter fun q => !w.installed q) = [] ↔ w.installed "make".toList = true ∧ w.installed (compilerOf p) = true ∧ w.installed (sizeOf p) = true := by
    rw [hdd.dedup, List.filter_eq_nil_iff]
    simp only [List.forall_mem_cons, List.not_mem_nil, false_imp_iff, implies_true, and_true, Bool.not_eq_true', Bool.not_eq_false]
  rw [e]
  unfold checkPrograms
  simp only
  constructor
  · rw [← hne]
    split
    · rename_i h; exact ⟨fun _ => h, fun _ => rfl⟩
    · rename_i h
      exact ⟨fun h' => by simp at h', fun h' => absurd h' h⟩
  · intro text ht
    split at ht
    · simp at ht
    · rename_i h
      have ht' := Option.some.inj (Except.ok.inj ht)
      refine ⟨_, ht'.symm, ?_, ?_, ?_⟩
      · exact (ho _).nodup_iff.2 ((List.nodup_dedup _).filter _)
      · intro h0
        have := (ho (["make".toList, compilerOf p, sizeOf p].dedup.filter fun q => !w.installed q)).length_eq
        rw [h0] at this
        exact h (List.length_eq_zero_iff.1 this.symm)
      · intro n
        rw [(ho _).mem_iff, hdd.dedup, List.mem_filter]
        simp only [List.mem_cons, List.not_mem_nil, or_false, Bool.not_eq_true']

/-- After a clean report of `check_build_tools`, `get_program_size` does not fail because a program it starts itself cannot be found, whatever the arguments. Missing: that the build does not fail for lack of a tool, which is wrong
(`C123_tools_refuted`). -/
theorem C123_tools_partial (w : World) (order : List Str → List Str) (ho : ∀ l, (order l).Perm l) (p : Platform) (h : checkBuildTools w order (platformName p) = .ok none) (code mcu : Str) (dirs : Option (List Str)) :
    ∀ prog, (getProgramSize w code (platformName p) mcu dirs).1 ≠ .error (.notFound prog) := by
  obtain ⟨h1, -, h3⟩ := (C123_check w order ho p).1.1 h
  intro prog
  simp only [getProgramSize, platformOf_name]
  have hb : ∀ extra, (build w code mcu p extra).1 ≠ .error (.notFound prog) := by
    intro extra
    have hm : ∀ flags, (runMake w code p flags extra).1 ≠ .error (.notFound prog) := by
      intro flags
      unfold runMake
      rw [if_pos h1]
      split
      · simp only
        split <;> simp
      · simp
    unfold build
    split
    · split
      · exact hm _
      · split
        · simp
        · exact hm _
    · simp
  unfold inTemp
  split
  · rename_i e he
    intro h'
    have h2 := Except.error.inj h'
    exact hb _ (by rw [he, h2])
  · simp only
    unfold runSize
    rw [if_pos h3]
    split
    · simp only
      split <;> simp
    · simp

/-- A toolchain in which every program that is there works. -/
def sampleWorld (progs : List Str) : World where
  installed := fun p => p ∈ progs
  succeeds := fun _ _ => true
  output := fun _ _ => "out.elf  :\nsection  size  addr\n.text  100  0\n.data  10  0\n.bss  5  0\nTotal  115\n".toList
  elfExists := fun _ => true
  makefileExists := fun _ => true
  platforms := "/platforms".toList
  tmp := "/tmp/x".toList
  expand := fun _ => []
  include_ := "/emlearn".toList

/-- What is expected: after a clean report every build that the programs accept succeeds. It is wrong: the first target of the makefiles also needs `objcopy`, which is not looked for. Every program that is there works, nothing is
reported missing, and the build fails. -/
theorem C123_tools_refuted : ∃ (w : World) (p : Platform) (code mcu : Str), (∀ code argv, w.succeeds code argv = true) ∧ (∀ p, w.makefileExists p = true) ∧ (∀ code, w.elfExists code = true) ∧
    (∃ cpu, CpuOptions p mcu cpu) ∧ checkBuildTools w id (platformName p) = .ok none ∧ ∃ argv, (getProgramSize w code (platformName p) mcu none).1 = .error (.calledProcess argv) := by
  refine ⟨sampleWorld ["make".toList, "avr-gcc".toList, "avr-size".toList], .avr, "int main(){}".toList, "atmega2560".toList, fun _ _ => rfl, fun _ => rfl, fun _ => rfl, ⟨_, .avr _⟩, by decide +kernel,
    makeArgs (sampleWorld []) .avr "atmega2560".toList "-I/emlearn".toList, by decide +kernel⟩

/-- What is expected: the compiler is given every include directory. It is wrong for a directory with a blank in its name, which the shell splits. -/
theorem C123_include_refuted : ∃ (w : World) (code dir : Str), (getProgramSize w code "avr".toList "atmega2560".toList (some [dir])).1 = .ok ⟨110, 15⟩ ∧
    ∀ argv, Event.exec argv ∈ (getProgramSize w code "avr".toList "atmega2560".toList (some [dir])).2 → "-I".toList ++ dir ∉ argv := by
  refine ⟨sampleWorld ["make".toList, "avr-gcc".toList, "avr-size".toList, "avr-objcopy".toList], "int main(){}".toList, "/my files".toList, by decide +kernel, ?_⟩
  intro argv h
  have e : (getProgramSize (sampleWorld ["make".toList, "avr-gcc".toList, "avr-size".toList, "avr-objcopy".toList]) "int main(){}".toList "avr".toList "atmega2560".toList (some ["/my files".toList])).2 =
    [.mkTemp, .write "prog.c".toList "int main(){}".toList,
     .exec ["make".toList, "-f".toList, "/platforms/avr/Makefile".toList, "OBJS=prog.o".toList, "MCU=atmega2560".toList, "BIN=out".toList, "EXTRA_CFLAGS=-I/my files".toList],
     .exec ["avr-gcc".toList, "-Wall".toList, "-Os".toList, "-DF_CPU=16000000UL".toList, "-mmcu=atmega2560".toList, "-I/my".toList, "files".toList, "-c".toList, "-o".toList, "prog.o".toList, "prog.c".toList],
     .exec ["avr-gcc".toList, "-mmcu=atmega2560".toList, "-o".toList, "out.elf".toList, "prog.o".toList],
     .exec ["avr-objcopy".toList, "-O".toList, "ihex".toList, "-R".toList, ".eeprom".toList, "out.elf".toList, "out.hex".toList],
     .exec ["avr-size".toList, "-A".toList, "/tmp/x/out.elf".toList], .rmTemp] := by decide +kernel
  rw [e] at h
  simp only [List.mem_cons, reduceCtorEq, Event.exec.injEq, List.not_mem_nil, or_false, false_or] at h
  rcases h with rfl | rfl | rfl | rfl | rfl <;> decide +kernel

/-- What is expected: the error for an unknown platform says which platform was asked for. It does not: the text is the same for all. -/
theorem C123_message_refuted (w : World) (code mcu platform : Str) (dirs : Option (List Str)) (h1 : platform ≠ "avr".toList) (h2 : platform ≠ "arm".toList) :
    (getProgramSize w code platform mcu dirs).1 = .error (.valueError "Unsupported build platform '{platform}'. Supported: {','.join(supported_platforms)}".toList) := by
  simp only [getProgramSize, (platformOf_none platform).2 ⟨h1, h2⟩]
  rfl

/-! ### The hypotheses are met -/

example : ∃ cpu, CpuOptions .arm "Cortex-M4F".toList cpu := ⟨_, .m4f⟩
example : Plain "atmega2560".toList := by decide
example : Plain "/usr/lib/python3/site-packages/emlearn".toList := by decide
example : ∀ cpu, ¬ CpuOptions .arm "Cortex-M7".toList cpu := (armFlags_none_iff _).1 (by decide)
example : (getProgramSize (sampleWorld ["make".toList, "arm-none-eabi-gcc".toList, "arm-none-eabi-size".toList, "arm-none-eabi-objcopy".toList]) [] "arm".toList "Cortex-M3".toList none).1 = .ok ⟨110, 15⟩ := by decide +kernel
example : checkBuildTools (sampleWorld ["make".toList]) id "arm".toList = .ok (some "Missing programs: arm-none-eabi-gcc, arm-none-eabi-size".toList) := by decide +kernel

end Emlearn.SizeTool
