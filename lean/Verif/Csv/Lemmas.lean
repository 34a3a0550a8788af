import Verif.Csv.Model
import Verif.Coils.Lemmas
import Mathlib.Tactic.FieldSimp
import Mathlib.Tactic.Ring
import Mathlib.Tactic.NormNum

/-! Helper lemmas for C116. -/
namespace Verif.Csv
open Verif Verif.Coils

/-- a cell: non-empty, without white space and without comma -/
def IsCell (w : Str) : Prop := w ≠ [] ∧ ∀ c ∈ w, isSpace c = false ∧ c ≠ ','

theorem splitComma_ne (s : Str) : splitComma s ≠ [] := by
  induction s with
  | nil => simp [splitComma]
  | cons c s ih =>
    unfold splitComma
    split
    · simp
    · split <;> simp

theorem splitComma_cell {w : Str} (h : ∀ c ∈ w, c ≠ ',') (s : Str) :
    ∃ p ps, splitComma s = p :: ps ∧ splitComma (w ++ s) = (w ++ p) :: ps := by
  induction w with
  | nil =>
    obtain ⟨p, ps, e⟩ := List.exists_cons_of_ne_nil (splitComma_ne s)
    exact ⟨p, ps, e, e⟩
  | cons c w ih =>
    obtain ⟨p, ps, e, e'⟩ := ih fun c hc => h c (by simp [hc])
    refine ⟨p, ps, e, ?_⟩
    rw [List.cons_append, splitComma, if_neg (h c (by simp)), e']
    rfl

theorem IsCell.keep {w : Str} (h : IsCell w) : (!w.all isSpace) = true := by
  obtain ⟨c, w', rfl⟩ := List.exists_cons_of_ne_nil h.1
  have := (h.2 c (by simp)).1
  simp [this]

theorem fields_cons {w : Str} (h : IsCell w) (s : Str) : fields (w ++ ',' :: s) = w :: fields s := by
  obtain ⟨p, ps, e, e'⟩ := splitComma_cell (fun c hc => (h.2 c hc).2) (',' :: s)
  unfold fields
  rw [e']
  rw [splitComma, if_pos rfl] at e
  injection e with e1 e2
  subst e1; subst e2
  rw [List.append_nil, List.filter_cons, if_pos h.keep]

theorem fields_last {w : Str} (h : IsCell w) : fields w = [w] := by
  obtain ⟨p, ps, e, e'⟩ := splitComma_cell (fun c hc => (h.2 c hc).2) []
  rw [List.append_nil] at e'
  unfold fields
  rw [e']
  rw [splitComma] at e
  injection e with e1 e2
  subst e1; subst e2
  rw [List.append_nil, List.filter_cons, if_pos h.keep]
  rfl

theorem dropWhile_none {s : Str} (h : ∀ c ∈ s, isSpace c = false) : s.dropWhile isSpace = s := by
  cases s with
  | nil => rfl
  | cons c s => rw [List.dropWhile_cons_of_neg]; simp [h c (by simp)]

theorem strip_none {s : Str} (h : ∀ c ∈ s, isSpace c = false) : strip s = s := by
  unfold strip
  rw [dropWhile_none h, dropWhile_none (fun c hc => h c (List.mem_reverse.1 hc)), List.reverse_reverse]

theorem no_newline {s : Str} (h : ∀ c ∈ s, isSpace c = false) : '\n' ∉ s := by
  intro hc
  have := h _ hc
  simp [isSpace] at this

theorem getlines_nil : getlines [] = [] := rfl

theorem getlines_join {ls : List Str} (h : ∀ l ∈ ls, '\n' ∉ l) : getlines (joinLines ls) = ls := by
  induction ls with
  | nil => rfl
  | cons l ls ih =>
    rw [joinLines, getlines_line (h l (by simp)), ih fun l hl => h l (by simp [hl])]

theorem noSpace_append {a b : Str} (ha : ∀ c ∈ a, isSpace c = false) (hb : ∀ c ∈ b, isSpace c = false) :
    ∀ c ∈ a ++ ',' :: b, isSpace c = false := by
  intro c hc
  rcases List.mem_append.1 hc with h | h
  · exact ha c h
  · rcases List.mem_cons.1 h with rfl | h
    · rfl
    · exact hb c h

theorem IsCell.noSpace {w : Str} (h : IsCell w) : ∀ c ∈ w, isSpace c = false := fun c hc => (h.2 c hc).1

theorem readLines_ok {α : Type} {f : Str → Outcome (α × α)} {ls : List Str} {ps : List (α × α)} :
    readLines f ls = .ok ps ↔ List.Forall₂ (fun l p => f l = .ok p) ls ps := by
  induction ls generalizing ps with
  | nil =>
    constructor
    · intro h
      simp only [readLines, Outcome.ok.injEq] at h
      subst h; exact .nil
    · intro h; cases h; rfl
  | cons l ls ih =>
    constructor
    · intro h
      simp only [readLines] at h
      cases h1 : f l with
      | ok p =>
        rw [h1, Outcome.bind_ok] at h
        cases h2 : readLines f ls with
        | ok qs =>
          rw [h2, Outcome.bind_ok, Outcome.ok.injEq] at h
          subst h
          exact .cons h1 (ih.1 h2)
        | _ => rw [h2] at h; cases h
      | _ => rw [h1] at h; cases h
    · intro h
      cases h with
      | cons h1 h2 => simp only [readLines]; rw [h1, Outcome.bind_ok, ih.2 h2, Outcome.bind_ok]

theorem readLines_defined {α : Type} {f : Str → Outcome (α × α)} (hf : ∀ l, (f l).Defined) (ls : List Str) :
    (readLines f ls).Defined := by
  induction ls with
  | nil => simp [readLines, Outcome.Defined]
  | cons l ls ih =>
    simp only [readLines]
    cases h1 : f l with
    | ok p =>
      rw [Outcome.bind_ok]
      cases h2 : readLines f ls with
      | ok qs => simp [Outcome.Defined]
      | ub w => exact absurd h2 (ih w)
      | _ => simp [Outcome.Defined]
    | ub w => exact absurd h1 (hf l w)
    | _ => simp [Outcome.Defined]

theorem round16_err (q : ℚ) (hq : q ≠ 0) : |round16 q - q| ≤ 5 * 10 ^ (-16 : Int) * |q| := by
  unfold round16
  set e := Int.log 10 |q| with he
  have hu : (0 : ℚ) < 10 ^ (e - 15) := zpow_pos (by norm_num) _
  have hl : (10 : ℚ) ^ e ≤ |q| := by
    have := Int.zpow_log_le_self (b := 10) (by norm_num) (abs_pos.2 hq)
    simpa [he] using this
  have h1 : ((round (q / 10 ^ (e - 15)) : Int) : ℚ) * 10 ^ (e - 15) - q =
      -(q / 10 ^ (e - 15) - round (q / 10 ^ (e - 15))) * 10 ^ (e - 15) := by
    field_simp
    ring
  rw [h1, abs_mul, abs_neg, abs_of_pos hu]
  have h2 := abs_sub_round (q / 10 ^ (e - 15))
  have h3 : (10 : ℚ) ^ (e - 15) = 10 ^ e * 10 ^ (-15 : Int) := by
    rw [← zpow_add₀ (by norm_num)]; congr 1
  calc |q / 10 ^ (e - 15) - round (q / 10 ^ (e - 15))| * 10 ^ (e - 15)
      ≤ 1 / 2 * 10 ^ (e - 15) := mul_le_mul_of_nonneg_right h2 hu.le
    _ = 5 * 10 ^ (-16 : Int) * 10 ^ e := by rw [h3]; norm_num; ring
    _ ≤ 5 * 10 ^ (-16 : Int) * |q| := mul_le_mul_of_nonneg_left hl (by norm_num)

theorem round16_zero : round16 0 = 0 := by
  unfold round16; simp

end Verif.Csv
