import Verif.CoilGeom.Frame
import Verif.Coils.Lemmas
import Mathlib.Data.List.TakeWhile

/-!
# C108: axis tables (CSV)
-/

namespace Verif.CoilGeom

open Verif.Coils (Str strip getlines isSpace getlines_line)

variable {α : Type}

/-! ## specification -/

/-- a printed number: not empty, without white space and commas -/
def CsvWord (w : Str) : Prop := w ≠ [] ∧ ∀ c ∈ w, isSpace c = false ∧ c ≠ ','

/-- `b` is the coefficient `a` after printing and reading: same mode number, the values as they come back (`rd`), an
    unset value as 0 -/
def ReadBack [Zero α] (rd : α → α) (a b : Coef α) : Prop :=
  b.mode = some (a.mode.getD 0) ∧ b.cos = some (rd (a.cos.getD 0)) ∧ b.sin = some (rd (a.sin.getD 0))

/-- a curve that can be written: equally many coefficients of `R` and `Z`, at least one, each with a mode number and a
    value, the mode numbers agreeing -/
def Complete (c : Curve α) : Prop :=
  c.r ≠ [] ∧ List.Forall₂ (fun a b => (a.mode.isSome ∧ (a.cos.isSome ∨ a.sin.isSome)) ∧
    (b.mode.isSome ∧ (b.cos.isSome ∨ b.sin.isSome)) ∧ a.mode = b.mode) c.r c.z

/-! ## proofs -/

theorem coefPopulated_iff (c : Coef α) : coefPopulated c = true ↔ c.mode.isSome ∧ (c.cos.isSome ∨ c.sin.isSome) := by
  obtain ⟨m, a, b⟩ := c
  cases m <;> cases a <;> cases b <;> simp [coefPopulated]

theorem coefsPopulated_iff (rs zs : List (Coef α)) (hl : rs.length = zs.length) : coefsPopulated rs zs = true ↔
    List.Forall₂ (fun a b => (a.mode.isSome ∧ (a.cos.isSome ∨ a.sin.isSome)) ∧
      (b.mode.isSome ∧ (b.cos.isSome ∨ b.sin.isSome)) ∧ a.mode = b.mode) rs zs := by
  induction rs generalizing zs with
  | nil =>
    cases zs with
    | nil => simp [coefsPopulated]
    | cons z zs => simp at hl
  | cons r rs ih =>
    cases zs with
    | nil => simp at hl
    | cons z zs =>
      have hl' : rs.length = zs.length := by simpa using hl
      rw [List.forall₂_cons, ← ih zs hl', coefsPopulated]
      rw [← coefPopulated_iff, ← coefPopulated_iff]
      by_cases h1 : coefPopulated r = true
      · by_cases h2 : coefPopulated z = true
        · have m1 := ((coefPopulated_iff r).1 h1).1
          have m2 := ((coefPopulated_iff z).1 h2).1
          obtain ⟨a, ha⟩ := Option.isSome_iff_exists.1 m1
          obtain ⟨b, hb⟩ := Option.isSome_iff_exists.1 m2
          have e : (r.n ≠ z.n) ↔ ¬ r.mode = z.mode := by
            unfold Coef.n; rw [ha, hb]; simp
          rw [if_neg (by simp [h1]), if_neg (by simp [h2])]
          by_cases h3 : r.mode = z.mode
          · rw [if_neg (by rw [e]; exact not_not.2 h3)]
            simp [h1, h2, h3]
          · rw [if_pos (e.2 h3)]
            simp [h3]
        · rw [if_neg (by simp [h1]), if_pos (by simpa using h2)]
          simp [h2]
      · rw [if_pos (by simpa using h1)]
        simp [h1]

/-- `C108`: the check accepts exactly the complete curves -/
theorem C108_complete (c : Curve α) : curvePopulated c = true ↔ Complete c := by
  unfold curvePopulated Complete
  by_cases h1 : c.r.length = 0
  · rw [if_pos h1]
    simp [List.length_eq_zero_iff.1 h1]
  · rw [if_neg h1]
    by_cases h2 : c.z.length = 0
    · rw [if_pos h2]
      have : ¬ (c.r ≠ [] ∧ List.Forall₂ (fun a b : Coef α => (a.mode.isSome ∧ (a.cos.isSome ∨ a.sin.isSome)) ∧
          (b.mode.isSome ∧ (b.cos.isSome ∨ b.sin.isSome)) ∧ a.mode = b.mode) c.r c.z) := by
        rintro ⟨-, h⟩
        exact h1 (h.length_eq.trans h2)
      simp only [Bool.false_eq_true, false_iff]
      exact this
    · rw [if_neg h2]
      by_cases h3 : c.r.length = c.z.length
      · rw [if_neg (by simpa using h3), coefsPopulated_iff _ _ h3]
        constructor
        · intro h; exact ⟨fun e => h1 (by rw [e]; rfl), h⟩
        · exact fun h => h.2
      · rw [if_pos h3]
        simp only [Bool.false_eq_true, false_iff]
        rintro ⟨-, h⟩
        exact h3 h.length_eq

theorem splitComma_ne (s : Str) : splitComma s ≠ [] := by
  cases s with
  | nil => simp [splitComma]
  | cons c s =>
    unfold splitComma
    split
    · simp
    · split <;> simp

theorem splitComma_word {w : Str} (h : ∀ c ∈ w, c ≠ ',') (s : Str) :
    ∃ p ps, splitComma s = p :: ps ∧ splitComma (w ++ s) = (w ++ p) :: ps := by
  induction w with
  | nil =>
    obtain ⟨p, ps, e⟩ := List.exists_cons_of_ne_nil (splitComma_ne s)
    exact ⟨p, ps, e, e⟩
  | cons c w ih =>
    obtain ⟨p, ps, e, e'⟩ := ih fun c hc => h c (by simp [hc])
    refine ⟨p, ps, e, ?_⟩
    rw [List.cons_append, splitComma, if_neg (h c (by simp)), e']
    rfl

theorem CsvWord.not_blank {w : Str} (h : CsvWord w) (q : Str) : (!(w ++ q).all isSpace) = true := by
  obtain ⟨c, w', rfl⟩ := List.exists_cons_of_ne_nil h.1
  have := (h.2 c (by simp)).1
  simp [this]

theorem fields_word_sep {w : Str} (h : CsvWord w) (s : Str) : fields (w ++ ',' :: s) = w :: fields s := by
  obtain ⟨p, ps, e, e'⟩ := splitComma_word (fun c hc => (h.2 c hc).2) (',' :: s)
  unfold fields
  rw [e']
  rw [splitComma, if_pos rfl] at e
  injection e with e1 e2
  subst e1; subst e2
  rw [List.filter_cons, if_pos (h.not_blank [])]
  simp

theorem fields_word {w : Str} (h : CsvWord w) : fields w = [w] := by
  obtain ⟨p, ps, e, e'⟩ := splitComma_word (fun c hc => (h.2 c hc).2) []
  rw [List.append_nil] at e'
  unfold fields
  rw [e']
  rw [splitComma] at e
  injection e with e1 e2
  subst e1; subst e2
  rw [List.filter_cons, if_pos (h.not_blank [])]
  simp

theorem dropWhile_none {l : Str} (h : ∀ c ∈ l, isSpace c = false) : l.dropWhile isSpace = l := by
  cases l with
  | nil => rfl
  | cons c l => rw [List.dropWhile_cons, if_neg (by rw [h c (by simp)]; simp)]

theorem strip_none {l : Str} (h : ∀ c ∈ l, isSpace c = false) : strip l = l := by
  unfold strip
  rw [dropWhile_none h, dropWhile_none (fun c hc => h c (List.mem_reverse.1 hc)), List.reverse_reverse]

section
variable [Zero α] {printInt : Int → Str} {printDouble : α → Str} {stoi : Str → Option Int} {stod : Str → Option α}
  {rd : α → α}

/-- a line without its line feed -/
def lineText (printInt : Int → Str) (printDouble : α → Str) (r z : Coef α) : Str :=
  printInt r.n ++ ',' :: (printDouble (r.cos.getD 0) ++ ',' :: (printDouble (z.sin.getD 0) ++ ',' ::
    (printDouble (r.sin.getD 0) ++ ',' :: printDouble (z.cos.getD 0))))

theorem writeLine_eq (r z : Coef α) (s : Str) :
    writeLine printInt printDouble r z ++ s = lineText printInt printDouble r z ++ '\n' :: s := by
  simp [writeLine, lineText]

theorem lineText_space (hi : ∀ n, CsvWord (printInt n)) (hd : ∀ x, CsvWord (printDouble x)) (r z : Coef α) :
    ∀ c ∈ lineText printInt printDouble r z, isSpace c = false := by
  intro c hc
  have comma : isSpace ',' = false := by decide
  simp only [lineText, List.mem_append, List.mem_cons] at hc
  rcases hc with h | rfl | h | rfl | h | rfl | h | rfl | h
  · exact ((hi _).2 c h).1
  · exact comma
  · exact ((hd _).2 c h).1
  · exact comma
  · exact ((hd _).2 c h).1
  · exact comma
  · exact ((hd _).2 c h).1
  · exact comma
  · exact ((hd _).2 c h).1

theorem lineText_nl (hi : ∀ n, CsvWord (printInt n)) (hd : ∀ x, CsvWord (printDouble x)) (r z : Coef α) :
    '\n' ∉ lineText printInt printDouble r z := by
  intro h
  have := lineText_space hi hd r z _ h
  simp [isSpace] at this

theorem readLine_lineText (hi : ∀ n, CsvWord (printInt n)) (hd : ∀ x, CsvWord (printDouble x))
    (ri : ∀ n, stoi (printInt n) = some n) (rdd : ∀ x, stod (printDouble x) = some (rd x)) (r z : Coef α) :
    readLine stoi stod (lineText printInt printDouble r z) =
      .ok (⟨some r.n, some (rd (r.cos.getD 0)), some (rd (r.sin.getD 0))⟩,
        ⟨some r.n, some (rd (z.cos.getD 0)), some (rd (z.sin.getD 0))⟩) := by
  unfold readLine
  rw [strip_none (lineText_space hi hd r z), lineText, fields_word_sep (hi _), fields_word_sep (hd _),
    fields_word_sep (hd _), fields_word_sep (hd _), fields_word (hd _)]
  simp only [ri, rdd, orThrow, Outcome.bind_ok, Outcome.pure_eq]

theorem readLines_writeLines (hi : ∀ n, CsvWord (printInt n)) (hd : ∀ x, CsvWord (printDouble x))
    (ri : ∀ n, stoi (printInt n) = some n) (rdd : ∀ x, stod (printDouble x) = some (rd x)) (rs zs : List (Coef α))
    (h : List.Forall₂ (fun a b : Coef α => a.mode = b.mode) rs zs) :
    ∃ rs' zs', readLines stoi stod (getlines (writeLines printInt printDouble rs zs)) = .ok ⟨rs', zs'⟩ ∧
      List.Forall₂ (ReadBack rd) rs rs' ∧ List.Forall₂ (ReadBack rd) zs zs' := by
  induction h with
  | nil => exact ⟨[], [], rfl, .nil, .nil⟩
  | @cons r z rs zs hrz _ ih =>
    obtain ⟨rs', zs', e, h1, h2⟩ := ih
    refine ⟨⟨some r.n, some (rd (r.cos.getD 0)), some (rd (r.sin.getD 0))⟩ :: rs',
      ⟨some r.n, some (rd (z.cos.getD 0)), some (rd (z.sin.getD 0))⟩ :: zs', ?_, .cons ?_ h1, .cons ?_ h2⟩
    · rw [writeLines, writeLine_eq, getlines_line (lineText_nl hi hd r z), readLines,
        readLine_lineText hi hd ri rdd, Outcome.bind_ok, e, Outcome.bind_ok, Outcome.pure_eq]
    · exact ⟨rfl, rfl, rfl⟩
    · refine ⟨?_, rfl, rfl⟩
      unfold Coef.n; rw [hrz]

/-- `C108`: writing a complete curve as a table and reading the table gives back the curve: all mode numbers, and all
    values as printing and reading a number maps them -/
theorem C108_roundtrip (hi : ∀ n, CsvWord (printInt n)) (hd : ∀ x, CsvWord (printDouble x))
    (ri : ∀ n, stoi (printInt n) = some n) (rdd : ∀ x, stod (printDouble x) = some (rd x)) (c : Curve α)
    (hc : Complete c) :
    ∃ t c', toCsv printInt printDouble c = .ok t ∧ fromCsv stoi stod t = .ok c' ∧
      List.Forall₂ (ReadBack rd) c.r c'.r ∧ List.Forall₂ (ReadBack rd) c.z c'.z := by
  obtain ⟨rs', zs', e, h1, h2⟩ := readLines_writeLines (stoi := stoi) (stod := stod) hi hd ri rdd c.r c.z
    (hc.2.imp fun _ _ h => h.2.2)
  refine ⟨curveHeader ++ ['\n'] ++ writeLines printInt printDouble c.r c.z, ⟨rs', zs'⟩, ?_, ?_, h1, h2⟩
  · unfold toCsv
    rw [(C108_complete c).2 hc]
    rfl
  · unfold fromCsv
    rw [show curveHeader ++ ['\n'] ++ writeLines printInt printDouble c.r c.z =
      curveHeader ++ '\n' :: writeLines printInt printDouble c.r c.z by simp]
    rw [getlines_line (by unfold curveHeader; decide)]
    dsimp only
    rw [if_neg (by simp), e]

/-- `C108`: an incomplete curve is refused -/
theorem C108_incomplete (c : Curve α) (hc : ¬ Complete c) :
    toCsv printInt printDouble c = .status "not fully populated" := by
  unfold toCsv
  have h : curvePopulated c = false := by
    rw [← Bool.not_eq_true, C108_complete]; exact hc
  rw [h]
  rfl

theorem Complete.readBack {c c' : Curve α} (hc : Complete c) (h1 : List.Forall₂ (ReadBack rd) c.r c'.r)
    (h2 : List.Forall₂ (ReadBack rd) c.z c'.z) : Complete c' := by
  obtain ⟨hne, hf⟩ := hc
  constructor
  · intro e
    rw [e] at h1
    cases h : c.r with
    | nil => exact hne h
    | cons a l => rw [h] at h1; cases h1
  · obtain ⟨r, z⟩ := c
    obtain ⟨r', z'⟩ := c'
    dsimp only at *
    clear hne
    induction hf generalizing r' z' with
    | nil => cases h1; cases h2; exact .nil
    | cons hab _ ih =>
      cases h1 with
      | cons e1 h1 =>
        cases h2 with
        | cons e2 h2 =>
          refine .cons ⟨⟨by rw [e1.1]; rfl, Or.inl (by rw [e1.2.1]; rfl)⟩,
            ⟨by rw [e2.1]; rfl, Or.inl (by rw [e2.2.1]; rfl)⟩, ?_⟩ (ih _ _ h1 h2)
          rw [e1.1, e2.1, hab.2.2]

theorem writeLines_readBack (hp : ∀ x, printDouble (rd x) = printDouble x) {rs zs rs' zs' : List (Coef α)}
    (h1 : List.Forall₂ (ReadBack rd) rs rs') (h2 : List.Forall₂ (ReadBack rd) zs zs') :
    writeLines printInt printDouble rs' zs' = writeLines printInt printDouble rs zs := by
  induction h1 generalizing zs zs' with
  | nil => cases h2 <;> rfl
  | cons e1 _ ih =>
    cases h2 with
    | nil => rfl
    | cons e2 h2 =>
      rw [writeLines, writeLines, ih h2, writeLine, writeLine, Coef.n, Coef.n, e1.1, e1.2.1, e1.2.2, e2.2.1, e2.2.2]
      simp only [Option.getD_some, hp]

/-- `C108`: what was read can be written again, as the very same text, if printing a read number repeats the text -/
theorem C108_rewrite (hp : ∀ x, printDouble (rd x) = printDouble x) (c c' : Curve α) (hc : Complete c)
    (h1 : List.Forall₂ (ReadBack rd) c.r c'.r) (h2 : List.Forall₂ (ReadBack rd) c.z c'.z) :
    toCsv printInt printDouble c' = toCsv printInt printDouble c := by
  unfold toCsv
  rw [(C108_complete c).2 hc, (C108_complete c').2 (hc.readBack h1 h2), writeLines_readBack hp h1 h2]

end

/-! ## what fails -/

/-- `C108` fails: with 16 digits (`%g`: between 1 and 10 the value is rounded to 15 decimals) the text of the double
    after 1 is the text of 1, whatever the printing routine looks like beyond that, so no reader can restore it -/
theorem C108_digits_lost (printInt : Int → Str) (printDouble : ℝ → Str)
    (h16 : ∀ x y : ℝ, 1 ≤ x → x < 10 → 1 ≤ y → y < 10 → round (x * 10 ^ 15) = round (y * 10 ^ 15) →
      printDouble x = printDouble y) :
    toCsv printInt printDouble ⟨[⟨some 0, some (1 + 2 ^ (-52 : ℤ)), none⟩], [⟨some 0, some 1, none⟩]⟩ =
      toCsv printInt printDouble ⟨[⟨some 0, some 1, none⟩], [⟨some 0, some 1, none⟩]⟩ := by
  have e : printDouble (1 + 2 ^ (-52 : ℤ)) = printDouble 1 := by
    refine h16 _ _ (by norm_num) (by norm_num) (by norm_num) (by norm_num) ?_
    rw [show ((1 : ℝ) * 10 ^ 15) = ((10 ^ 15 : ℤ) : ℝ) by norm_num, round_intCast]
    rw [round_eq, Int.floor_eq_iff]
    constructor <;> norm_num
  simp only [toCsv, writeLines, writeLine, Option.getD_some, e]
  rfl

/-- `C108` fails: an empty field is skipped instead of refused, so the columns after it shift -/
theorem C108_shift (stoi : Str → Option Int) (stod : Str → Option α) (n : Int) (a b c d : α)
    (hn : stoi "1".toList = some n) (ha : stod "2".toList = some a) (hb : stod "3".toList = some b)
    (hc : stod "4".toList = some c) (hd : stod "5".toList = some d) :
    readLine stoi stod "1,,2,3,4,5".toList = .ok (⟨some n, some a, some c⟩, ⟨some n, some d, some b⟩) := by
  have e : fields (strip "1,,2,3,4,5".toList) = ["1".toList, "2".toList, "3".toList, "4".toList, "5".toList] := by decide
  unfold readLine
  rw [e]
  simp only [hn, ha, hb, hc, hd, orThrow, Outcome.bind_ok, Outcome.pure_eq]

/-- `C108` fails: a table without data lines is read as an empty curve, which cannot be written -/
theorem C108_header_only (stoi : Str → Option Int) (stod : Str → Option α) [Zero α] (printInt : Int → Str)
    (printDouble : α → Str) :
    fromCsv stoi stod (curveHeader ++ ['\n']) = .ok ⟨[], []⟩ ∧
      toCsv printInt printDouble (⟨[], []⟩ : Curve α) = .status "not fully populated" := by
  constructor
  · unfold fromCsv
    rw [show getlines (curveHeader ++ ['\n']) = [curveHeader] by unfold curveHeader; decide]
    rfl
  · rfl

/-- `C108` fails: with Windows line ends the header is refused although data lines would be accepted -/
theorem C108_carriage_return (stoi : Str → Option Int) (stod : Str → Option α) (s : Str) :
    fromCsv stoi stod (curveHeader ++ '\r' :: '\n' :: s) = .status "header line not found" ∧
      ∀ l, readLine stoi stod (l ++ ['\r']) = readLine stoi stod l := by
  constructor
  · unfold fromCsv
    rw [show curveHeader ++ '\r' :: '\n' :: s = (curveHeader ++ ['\r']) ++ '\n' :: s by simp,
      getlines_line (by unfold curveHeader; decide)]
    dsimp only
    rw [if_pos (by unfold curveHeader; decide)]
  · intro l
    have : strip (l ++ ['\r']) = strip l := by
      unfold strip
      by_cases h : ∀ c ∈ l, isSpace c = true
      · have h' : (l ++ ['\r']).dropWhile isSpace = [] := List.dropWhile_eq_nil_iff.2 (by
          intro c hc
          rcases List.mem_append.1 hc with hc | hc
          · exact h c hc
          · rw [List.mem_singleton.1 hc]; decide)
        rw [h', List.dropWhile_eq_nil_iff.2 h]
      · rw [List.dropWhile_append]
        have hne : l.dropWhile isSpace ≠ [] := fun e => h (List.dropWhile_eq_nil_iff.1 e)
        rw [if_neg (by simpa using hne), List.reverse_append]
        rfl
    unfold readLine
    rw [this]

/-- a printing and reading pair meeting the assumptions, on integers in unary notation -/
def unaryPrint (n : Int) : Str := (if n < 0 then '-' else '+') :: List.replicate n.natAbs 'I'

def unaryRead : Str → Option Int
  | '-' :: s => some (-(s.length : Int))
  | '+' :: s => some (s.length : Int)
  | _ => none

example : (∀ n, CsvWord (unaryPrint n)) ∧ (∀ n, unaryRead (unaryPrint n) = some n) ∧
    Complete (⟨[⟨some 0, some 4, none⟩, ⟨some 1, some 1, none⟩],
      [⟨some 0, none, some 0⟩, ⟨some 1, none, some 1⟩]⟩ : Curve Int) := by
  refine ⟨fun n => ⟨by simp [unaryPrint], fun c hc => ?_⟩, fun n => ?_, by simp [Complete]⟩
  · unfold unaryPrint at hc
    rcases List.mem_cons.1 hc with rfl | hc
    · split <;> decide
    · rw [(List.mem_replicate.1 hc).2]; decide
  · unfold unaryPrint
    split
    · simp only [unaryRead, List.length_replicate]; congr 1; omega
    · simp only [unaryRead, List.length_replicate]; congr 1; omega

end Verif.CoilGeom
