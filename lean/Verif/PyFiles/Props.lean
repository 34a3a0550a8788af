import Verif.PyFiles.Model

/-! # C103: file names and conversions of the Python interface -/
namespace Verif.PyFiles
open Verif

/-! ## lemmas on strings -/

theorem startswith_iff (s p : Str) : startswith s p = true ↔ ∃ r, s = p ++ r := by
  unfold startswith
  rw [List.isPrefixOf_iff_prefix]
  exact ⟨fun ⟨r, h⟩ => ⟨r, h.symm⟩, fun ⟨r, h⟩ => ⟨r, h.symm⟩⟩

theorem endswith_iff (s p : Str) : endswith s p = true ↔ ∃ r, s = r ++ p := by
  unfold endswith
  rw [List.isSuffixOf_iff_suffix]
  exact ⟨fun ⟨r, h⟩ => ⟨r, h.symm⟩, fun ⟨r, h⟩ => ⟨r, h.symm⟩⟩

theorem startswith_append (p r : Str) : startswith (p ++ r) p = true := (startswith_iff _ _).2 ⟨r, rfl⟩
theorem endswith_append (r p : Str) : endswith (r ++ p) p = true := (endswith_iff _ _).2 ⟨r, rfl⟩

/-- a string whose last character differs from the last one of `p` does not end with `p` -/
theorem not_endswith_of_last {s p : Str} {a b : Char} (hs : s.getLast? = some a) (hp : p.getLast? = some b) (hab : a ≠ b) :
    endswith s p = false := by
  rw [Bool.eq_false_iff]
  intro h
  obtain ⟨r, rfl⟩ := (endswith_iff _ _).1 h
  rw [List.getLast?_append, hp] at hs
  simp at hs
  exact hab hs.symm

theorem not_startswith_of_head {s p : Str} {a b : Char} (hs : s.head? = some a) (hp : p.head? = some b) (hab : a ≠ b) :
    startswith s p = false := by
  rw [Bool.eq_false_iff]
  intro h
  obtain ⟨r, rfl⟩ := (startswith_iff _ _).1 h
  rw [List.head?_append, hp] at hs
  simp at hs
  exact hab hs.symm

theorem splitDot_ne_nil (s : Str) : splitDot s ≠ [] := by
  cases s with
  | nil => simp [splitDot]
  | cons c cs =>
    unfold splitDot
    split_ifs
    · simp
    · split <;> simp

theorem splitDot_dot (a b : Str) : splitDot (a ++ '.' :: b) = splitDot a ++ splitDot b := by
  induction a with
  | nil => simp [splitDot]
  | cons c cs ih =>
    simp only [List.cons_append, splitDot]
    split_ifs with h
    · rw [ih]; rfl
    · rw [ih]
      cases hs : splitDot cs with
      | nil => exact absurd hs (splitDot_ne_nil cs)
      | cons w ws => simp

theorem joinDot_splitDot (s : Str) : joinDot (splitDot s) = s := by
  induction s with
  | nil => rfl
  | cons c cs ih =>
    unfold splitDot
    split_ifs with h
    · cases hs : splitDot cs with
      | nil => exact absurd hs (splitDot_ne_nil cs)
      | cons w ws => rw [hs] at ih; simp [joinDot, ih, h]
    · cases hs : splitDot cs with
      | nil => exact absurd hs (splitDot_ne_nil cs)
      | cons w ws =>
        rw [hs] at ih
        cases ws with
        | nil => simp only [joinDot] at ih ⊢; rw [ih]
        | cons w' ws' => simp only [joinDot] at ih ⊢; rw [List.cons_append, ih]

/-! ## configuration names -/

/-- **C103**: the configuration name is recovered from the three kinds of file names, for every name `N`; for an INDATA
    file the whole name must not look like a JSON file -/
theorem C103_names (N : Str) :
    configurationName (N ++ sDotJson) = .ok N ∧
    configurationName (sWout ++ N ++ sDotNc) = .ok N ∧
    (endswith (sInputDot ++ N) sDotJson = false → configurationName (sInputDot ++ N) = .ok N) := by
  refine ⟨?_, ?_, fun h => ?_⟩
  · unfold configurationName
    rw [if_pos (endswith_append _ _)]
    simp [sDotJson]
  · unfold configurationName
    have h1 : endswith (sWout ++ N ++ sDotNc) sDotJson = false :=
      not_endswith_of_last (a := 'c') (b := 'n') (by rw [List.getLast?_append]; rfl) rfl (by decide)
    have h2 : startswith (sWout ++ N ++ sDotNc) sInputDot = false :=
      not_startswith_of_head (a := 'w') (b := 'i') rfl rfl (by decide)
    have h3 : startswith (sWout ++ N ++ sDotNc) sWout = true := by rw [List.append_assoc]; exact startswith_append _ _
    rw [h1, h2, h3, endswith_append]
    simp [sWout, sDotNc]
  · unfold configurationName
    rw [h, startswith_append]
    simp [sInputDot]

/-- **C103**: every other name is refused -/
theorem C103_refused (f : Str) :
    (∃ m, configurationName f = .throws m) ↔
      (¬ ∃ N, f = N ++ sDotJson) ∧ (¬ ∃ N, f = sInputDot ++ N) ∧ ¬ ∃ N, f = sWout ++ N ++ sDotNc := by
  constructor
  · rintro ⟨m, h⟩
    refine ⟨?_, ?_, ?_⟩
    · rintro ⟨N, rfl⟩; rw [(C103_names N).1] at h; cases h
    · rintro ⟨N, rfl⟩
      unfold configurationName at h
      rw [startswith_append] at h
      split_ifs at h with h1 h2
      exact h2 rfl
    · rintro ⟨N, rfl⟩; rw [(C103_names N).2.1] at h; cases h
  · rintro ⟨h1, h2, h3⟩
    have e1 : endswith f sDotJson = false := by rw [Bool.eq_false_iff]; exact fun h => h1 ((endswith_iff _ _).1 h)
    have e2 : startswith f sInputDot = false := by rw [Bool.eq_false_iff]; exact fun h => h2 ((startswith_iff _ _).1 h)
    have e3 : (startswith f sWout && endswith f sDotNc) = false := by
      rw [Bool.eq_false_iff]
      intro h
      rw [Bool.and_eq_true] at h
      obtain ⟨⟨a, ha⟩, ⟨b, hb⟩⟩ := And.intro ((startswith_iff _ _).1 h.1) ((endswith_iff _ _).1 h.2)
      have hl : 5 ≤ b.length := by
        by_contra hlt
        have hb5 : f.take 5 = sWout := by rw [ha]; rfl
        rw [hb] at hb5
        match b, hlt with
        | [], _ => simp [sDotNc, sWout] at hb5
        | [_], _ => simp [sDotNc, sWout] at hb5
        | [_, _], _ => simp [sDotNc, sWout] at hb5
        | [_, _, _], _ => simp [sDotNc, sWout] at hb5
        | [_, _, _, _], _ => simp [sDotNc, sWout] at hb5
        | _ :: _ :: _ :: _ :: _ :: _, hlt => simp at hlt
      have hbp : b = sWout ++ b.drop 5 := by
        have : b.take 5 = sWout := by
          have h5 : f.take 5 = sWout := by rw [ha]; rfl
          rw [hb, List.take_append_of_le_length hl] at h5
          exact h5
        rw [← this, List.take_append_drop]
      exact h3 ⟨b.drop 5, by rw [← hbp]; exact hb⟩
    refine ⟨"ValueError: This does not look like a VMEC input or output file", ?_⟩
    unfold configurationName
    rw [e1, e2, e3]
    simp

example : endswith (sInputDot ++ ['w', '7', 'x']) sDotJson = false := by decide
/-- the name `input.json` has a configuration name of its own -/
example : configurationName (sInputDot ++ ['j', 's', 'o', 'n']) = .ok sInput := by decide

/-- **C103**: the name of the output file of the SIMSOPT wrapper for the three kinds of input names the comment lists, and
    the configuration name read back from it -/
theorem C103_wout (N : Str) :
    makeWoutFilename (sInputDot ++ N ++ sDotJson) = .ok (sWout ++ N ++ sDotNc) ∧
    (startswith (N ++ sDotJson) sInputDot = false → makeWoutFilename (N ++ sDotJson) = .ok (sWout ++ N ++ sDotNc)) ∧
    (endswith (sInputDot ++ N) sDotJson = false → makeWoutFilename (sInputDot ++ N) = .ok (sWout ++ N ++ sDotNc)) ∧
    configurationName (sWout ++ N ++ sDotNc) = .ok N := by
  refine ⟨?_, fun h => ?_, fun h => ?_, (C103_names N).2.1⟩
  · unfold makeWoutFilename
    rw [endswith_append, List.append_assoc, startswith_append]
    simp only [Bool.and_self, if_true]
    have e : sInputDot ++ (N ++ sDotJson) = sInput ++ '.' :: (N ++ '.' :: ['j', 's', 'o', 'n']) := by
      simp [sInputDot, sInput, sDotJson]
    rw [e, splitDot_dot, splitDot_dot]
    have e1 : splitDot sInput = [sInput] := by decide
    have e2 : splitDot ['j', 's', 'o', 'n'] = [['j', 's', 'o', 'n']] := by decide
    rw [e1, e2]
    simp only [List.singleton_append, List.tail_cons, List.dropLast_concat, joinDot_splitDot]
  · unfold makeWoutFilename
    rw [h, endswith_append]
    simp [removesuffix, endswith_append, sDotJson]
  · unfold makeWoutFilename
    rw [h, startswith_append]
    simp [removeprefix, startswith_append]

example : startswith (['w', '7', 'x'] ++ sDotJson) sInputDot = false := by decide

/-- **C103**: the wrapper refuses exactly the names without either mark -/
theorem C103_wout_refused (f : Str) :
    (∃ m, makeWoutFilename f = .throws m) ↔ (¬ ∃ N, f = sInputDot ++ N) ∧ ¬ ∃ N, f = N ++ sDotJson := by
  rw [← startswith_iff, ← endswith_iff]
  unfold makeWoutFilename
  cases startswith f sInputDot <;> cases endswith f sDotJson <;> simp

/-- F101: the comment promises `wout_input.nc` for `input.json`; the function returns `wout_.nc` -/
theorem C103_input_json_fails :
    makeWoutFilename (sInput ++ sDotJson) = .ok (sWout ++ sDotNc) ∧
    makeWoutFilename (sInput ++ sDotJson) ≠ .ok (sWout ++ sInput ++ sDotNc) := by
  constructor <;> decide

/-- the wrapper and the command line agree on the output file exactly when the input name has one of the two marks
    `input.` and `.json` but not both; F102: for `input.N.json` the command line writes `wout_input.N.nc` -/
theorem C103_same_output (N : Str) :
    (startswith (N ++ sDotJson) sInputDot = false →
      makeWoutFilename (N ++ sDotJson) = (configurationName (N ++ sDotJson)).bind (fun c => .ok (sWout ++ c ++ sDotNc))) ∧
    (endswith (sInputDot ++ N) sDotJson = false →
      makeWoutFilename (sInputDot ++ N) = (configurationName (sInputDot ++ N)).bind (fun c => .ok (sWout ++ c ++ sDotNc))) ∧
    (makeWoutFilename (sInputDot ++ N ++ sDotJson) ≠
      (configurationName (sInputDot ++ N ++ sDotJson)).bind (fun c => .ok (sWout ++ c ++ sDotNc))) := by
  refine ⟨fun h => ?_, fun h => ?_, ?_⟩
  · rw [(C103_wout N).2.1 h, (C103_names N).1]; rfl
  · rw [(C103_wout N).2.2.1 h, (C103_names N).2.2 h]; rfl
  · rw [(C103_wout N).1, (C103_names (sInputDot ++ N)).1]
    intro h
    simp only [Outcome.bind, Outcome.ok.injEq] at h
    have := congrArg List.length h
    simp [sInputDot] at this
    omega

/-- **C103**: `[input.]NAME[.json]` is converted to `input.NAME`, as the comment of `ensure_vmec2000_input` says -/
theorem C103_indata_name (N : Str) (h1 : startswith N sInputDot = false) (h2 : endswith N sDotJson = false)
    (h3 : endswith (sInputDot ++ N) sDotJson = false) :
    indataName N = sInputDot ++ N ∧ indataName (N ++ sDotJson) = sInputDot ++ N ∧
    indataName (sInputDot ++ N) = sInputDot ++ N ∧ indataName (sInputDot ++ N ++ sDotJson) = sInputDot ++ N ∧
    configurationName (sInputDot ++ N) = .ok N := by
  have r : ∀ s : Str, removesuffix (s ++ sDotJson) sDotJson = s := by
    intro s; simp [removesuffix, endswith_append]
  have q : removeprefix (sInputDot ++ N) sInputDot = N := by simp [removeprefix, startswith_append]
  have q' : removeprefix N sInputDot = N := by simp [removeprefix, h1]
  refine ⟨?_, ?_, ?_, ?_, (C103_names N).2.2 h3⟩
  · simp [indataName, removesuffix, h2, q']
  · simp [indataName, r, q']
  · simp only [indataName, removesuffix, h3]; simp [q]
  · simp only [indataName, r, q]

example : startswith ['w', '7', 'x'] sInputDot = false ∧ endswith ['w', '7', 'x'] sDotJson = false ∧
    endswith (sInputDot ++ ['w', '7', 'x']) sDotJson = false := by decide

/-! ## recognising INDATA files -/

/-- blank lines and comment lines -/
def skipped (line : Str) : Prop := strip line = [] ∨ ∃ r, strip line = '!' :: r

theorem skip_iff (line : Str) : ((strip line).isEmpty || startswith (strip line) ['!']) = true ↔ skipped line := by
  unfold skipped
  rw [Bool.or_eq_true, List.isEmpty_iff, startswith_iff]
  rfl

/-- **C103**: a file is taken for INDATA exactly if its first line that is neither blank nor a comment is `&INDATA` -/
theorem C103_indata (lines : List Str) :
    isVmec2000Input lines = true ↔
      ∃ before line after, lines = before ++ line :: after ∧ (∀ l ∈ before, skipped l) ∧ strip line = sIndata := by
  induction lines with
  | nil => simp [isVmec2000Input]
  | cons l ls ih =>
    unfold isVmec2000Input
    by_cases hs : skipped l
    · simp only [(skip_iff l).2 hs, if_true]
      rw [ih]
      constructor
      · rintro ⟨b, x, a, rfl, hb, hx⟩
        exact ⟨l :: b, x, a, rfl, by simpa [hs] using hb, hx⟩
      · rintro ⟨b, x, a, he, hb, hx⟩
        cases b with
        | nil =>
          simp only [List.nil_append, List.cons.injEq] at he
          rw [← he.1] at hx
          rcases hs with h | ⟨r, h⟩ <;> rw [h] at hx <;> simp [sIndata] at hx
        | cons b0 b =>
          simp only [List.cons_append, List.cons.injEq] at he
          exact ⟨b, x, a, he.2, fun y hy => hb y (List.mem_cons_of_mem _ hy), hx⟩
    · have : ((strip l).isEmpty || startswith (strip l) ['!']) = false := by
        rw [Bool.eq_false_iff]; exact fun h => hs ((skip_iff l).1 h)
      simp only [this]
      constructor
      · intro h
        exact ⟨[], l, ls, rfl, by simp, by simpa using h⟩
      · rintro ⟨b, x, a, he, hb, hx⟩
        cases b with
        | nil =>
          simp only [List.nil_append, List.cons.injEq] at he
          rw [he.1]; simp [hx]
        | cons b0 b =>
          simp only [List.cons_append, List.cons.injEq] at he
          exact absurd (by rw [he.1]; exact hb b0 (List.mem_cons_self)) hs

example : isVmec2000Input [[' '], ['!', 'x'], [' '] ++ sIndata ++ ['\n'], ['/']] = true := by decide
/-- F103: Fortran namelists are case insensitive and may go on after the group name; these are not recognised -/
theorem C103_indata_fails :
    isVmec2000Input [['&', 'i', 'n', 'd', 'a', 't', 'a']] = false ∧
    isVmec2000Input [sIndata ++ [' ', '!', ' ', 'x']] = false ∧
    isVmec2000Input [sIndata ++ [' ', 'N', 'F', 'P', '=', '5']] = false := by decide

/-! ## command line -/

/-- **C103**: a run that solves is saved under the name of the configuration, for names `N.json` and `input.N`; an INDATA
    file with another name is refused before anything is computed. Missing: JSON input with another name, see
    `C103_result_lost`. -/
theorem C103_cli_partial (N : Str) (isIndata : Bool) :
    mainRun (N ++ sDotJson) isIndata true true = ([.ran, .saved (sWout ++ N ++ sDotNc)], .ok ()) ∧
    (endswith (sInputDot ++ N) sDotJson = false →
      mainRun (sInputDot ++ N) isIndata true true = ([.ran, .saved (sWout ++ N ++ sDotNc)], .ok ())) ∧
    (∀ f m loads solves, configurationName f = .throws m → mainRun f true loads solves = ([], .throws m)) := by
  refine ⟨?_, fun h => ?_, fun f m loads solves h => ?_⟩
  · unfold mainRun
    rw [(C103_names N).1]
    cases isIndata <;> rfl
  · unfold mainRun
    rw [(C103_names N).2.2 h]
    cases isIndata <;> rfl
  · unfold mainRun
    rw [h]; rfl

/-- F104: a JSON input whose name has neither mark is read and solved, and only then the name is refused: the result of
    the run is lost -/
theorem C103_result_lost (f : Str) (h1 : ¬ ∃ N, f = N ++ sDotJson) (h2 : ¬ ∃ N, f = sInputDot ++ N)
    (h3 : ¬ ∃ N, f = sWout ++ N ++ sDotNc) : ∃ m, mainRun f false true true = ([.ran], .throws m) := by
  obtain ⟨m, hm⟩ := (C103_refused f).2 ⟨h1, h2, h3⟩
  refine ⟨m, ?_⟩
  unfold mainRun
  rw [hm]; rfl

example : ∃ m, mainRun ['w', '7', 'x', '.', 'v'] false true true = ([.ran], .throws m) := by
  apply C103_result_lost
  · rintro ⟨N, h⟩
    have : endswith ['w', '7', 'x', '.', 'v'] sDotJson = true := (endswith_iff _ _).2 ⟨N, h⟩
    exact absurd this (by decide)
  · rintro ⟨N, h⟩
    have : startswith ['w', '7', 'x', '.', 'v'] sInputDot = true := (startswith_iff _ _).2 ⟨N, h⟩
    exact absurd this (by decide)
  · rintro ⟨N, h⟩
    have : endswith ['w', '7', 'x', '.', 'v'] sDotNc = true := (endswith_iff _ _).2 ⟨_, h⟩
    exact absurd this (by decide)

theorem dropInputAux_none (fuel : Nat) (s : Str) (h : ∀ a b, s ≠ a ++ sInputDot ++ b) : dropInputAux fuel s = s := by
  induction fuel generalizing s with
  | zero => rfl
  | succ n ih =>
    cases s with
    | nil => rfl
    | cons c cs =>
      have h1 : startswith (c :: cs) sInputDot = false := by
        rw [Bool.eq_false_iff]
        intro hs
        obtain ⟨r, hr⟩ := (startswith_iff _ _).1 hs
        exact h [] r hr
      simp only [dropInputAux, h1]
      rw [ih cs (fun a b hab => h (c :: a) b (by rw [hab]; rfl))]
      simp

theorem dropInputAux_length (fuel : Nat) (s : Str) : ∃ k, (dropInputAux fuel s).length + 6 * k = s.length := by
  induction fuel generalizing s with
  | zero => exact ⟨0, by simp [dropInputAux]⟩
  | succ n ih =>
    cases s with
    | nil => exact ⟨0, by simp [dropInputAux]⟩
    | cons c cs =>
      unfold dropInputAux
      split_ifs with h
      · obtain ⟨r, hr⟩ := (startswith_iff _ _).1 h
        rw [hr]
        obtain ⟨k, hk⟩ := ih ((sInputDot ++ r).drop 6)
        refine ⟨k + 1, ?_⟩
        simp only [List.length_drop, List.length_append] at hk ⊢
        simp only [sInputDot, List.length_cons, List.length_nil] at hk ⊢
        omega
      · obtain ⟨k, hk⟩ := ih cs
        exact ⟨k, by simp only [List.length_cons]; omega⟩

/-- **C103**: `vmecpp convert` never writes over its input; an INDATA file `input.N` becomes `N.json` when `N` has no
    further `input.` -/
theorem C103_convert (f N : Str) (h : ∀ a b, N ≠ a ++ sInputDot ++ b) :
    convertName f ≠ f ∧ convertName (sInputDot ++ N) = N ++ sDotJson := by
  constructor
  · intro he
    obtain ⟨k, hk⟩ := dropInputAux_length f.length f
    have := congrArg List.length he
    unfold convertName dropInput at this
    rw [List.length_append] at this
    simp only [sDotJson, List.length_cons, List.length_nil] at this
    omega
  · unfold convertName dropInput
    congr 1
    show dropInputAux (N.length + 5 + 1) ('i' :: (['n', 'p', 'u', 't', '.'] ++ N)) = N
    have hs : startswith ('i' :: (['n', 'p', 'u', 't', '.'] ++ N)) sInputDot = true := startswith_append sInputDot N
    unfold dropInputAux
    rw [if_pos hs]
    exact dropInputAux_none _ _ h

example : ∀ a b, (['w', '7', 'x'] : Str) ≠ a ++ sInputDot ++ b := by
  intro a b h
  have := congrArg List.length h
  simp [sInputDot] at this
  omega

/-- **C103**: `vmecpp convert` writes the converted file if the input loads, and nothing otherwise -/
theorem C103_convert_main (f : Str) (isIndata loads : Bool) :
    (mainConvert f isIndata loads).1 = [.converted (convertName f)] ↔
      loads = true ∧ (isIndata = true → ∃ N, configurationName f = .ok N) := by
  have hc : (∃ N, configurationName f = .ok N) ∨ ∃ m, configurationName f = .throws m := by
    unfold configurationName
    split_ifs
    · exact Or.inl ⟨_, rfl⟩
    · exact Or.inl ⟨_, rfl⟩
    · exact Or.inl ⟨_, rfl⟩
    · exact Or.inr ⟨_, rfl⟩
  unfold mainConvert
  rcases hc with ⟨N, h⟩ | ⟨m, h⟩ <;> rw [h] <;> cases isIndata <;> cases loads <;> simp [Outcome.bind]

/-- F105: a JSON input is converted to a file with the suffix twice, and the text `input.` disappears from the middle of a
    name -/
theorem C103_convert_fails :
    convertName (['a'] ++ sDotJson) = ['a'] ++ sDotJson ++ sDotJson ∧
    convertName (sInputDot ++ ['a'] ++ sDotJson) = ['a'] ++ sDotJson ++ sDotJson ∧
    convertName (sInputDot ++ ['m', 'y', '_'] ++ sInputDot ++ ['a']) = ['m', 'y', '_', 'a'] ++ sDotJson := by decide

/-! ## the temporary JSON file -/

/-- **C103**: the context of an INDATA file hands the converted contents to its body under a name of its own, leaves every
    other file to the body, passes on how the body ended, and removes the converted file -/
theorem C103_context {α : Type} (indata2json : List Str → Outcome (List Str)) (pid f : Str) (d : Dir)
    (body : Str → Dir → Ended α) (lines json : List Str) (N : Str) (hp : pid ≠ []) (hf : d f = some lines)
    (hi : isVmec2000Input lines = true) (hc : configurationName f = .ok N) (hj : indata2json lines = .ok json)
    (hb : ∀ g d', (∀ x, x ≠ g → d' x = d x) → d' g = some json → ∀ x, (body g d').dir x = d' x) :
    let tmp := N ++ '.' :: pid ++ sDotJson
    let e := ensureVmecppInput indata2json pid f d body
    tmp ≠ f ∧ (∀ x, x ≠ tmp → e.dir x = d x) ∧ e.dir tmp = none ∧
    e.out = (body tmp (fun g => if g = tmp then some json else d g)).out := by
  intro tmp e
  have hb' := hb tmp (fun g => if g = tmp then some json else d g) (fun x hx => by simp [hx]) (by simp)
  have ee : e = ⟨fun g => if g = tmp then none else (body tmp (fun g => if g = tmp then some json else d g)).dir g,
      (body tmp (fun g => if g = tmp then some json else d g)).out⟩ := by
    show ensureVmecppInput indata2json pid f d body = _
    unfold ensureVmecppInput
    rw [hf]
    simp only [hi, hc, hj, if_true]
    have : (body tmp (fun g => if g = tmp then some json else d g)).dir tmp = some json := by rw [hb' tmp]; simp
    show (match (body tmp (fun g => if g = tmp then some json else d g)).dir tmp with | some _ => _ | none => _) = _
    rw [this]
  refine ⟨?_, ?_, ?_, ?_⟩
  · intro ht
    have hpl : 0 < pid.length := List.length_pos_iff.2 hp
    have hjs : endswith f sDotJson = true := by rw [← ht]; exact endswith_append _ _
    obtain ⟨M, hM⟩ := (endswith_iff _ _).1 hjs
    rw [hM, (C103_names M).1] at hc
    cases hc
    have := congrArg List.length (ht.trans hM)
    simp [tmp] at this
    omega
  · intro x hx; rw [ee]; simp only [hx, if_false]; rw [hb' x]; simp [hx]
  · rw [ee]; simp
  · rw [ee]

/-- F106: a file that already has the name of the temporary file is overwritten and deleted -/
theorem C103_context_fails : ∃ (d : Dir) (f g : Str), (d g).isSome ∧ g ≠ f ∧
    (ensureVmecppInput (fun _ => .ok []) ['7'] f d (fun _ d' => (⟨d', .ok ()⟩ : Ended Unit))).dir g = none := by
  refine ⟨fun x => if x = sInputDot ++ ['a'] then some [sIndata] else if x = ['a', '.', '7'] ++ sDotJson then some [['1']] else none,
    sInputDot ++ ['a'], ['a', '.', '7'] ++ sDotJson, by decide, by decide, by decide⟩

example : configurationName (sInputDot ++ ['a']) = .ok ['a'] ∧ isVmec2000Input [sIndata] = true := by decide

end Verif.PyFiles
