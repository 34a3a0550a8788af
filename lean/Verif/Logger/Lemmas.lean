import Verif.Logger.Model
import Mathlib.Tactic.Linarith

/-! Helper lemmas for C117. -/
namespace Verif.Logger
open Verif

theorem clamp01_range (x : D) : ∃ q : ℚ, clamp01 x = .fin q ∧ 0 ≤ q ∧ q ≤ 1 := by
  unfold clamp01 D.stdMax D.stdMin
  cases x with
  | nan => exact ⟨1, by simp [D.lt], by norm_num, le_refl _⟩
  | ninf => exact ⟨0, by simp [D.lt], le_refl _, by norm_num⟩
  | pinf => exact ⟨1, by simp [D.lt], by norm_num, le_refl _⟩
  | fin q =>
    by_cases h : q < 1
    · by_cases h0 : 0 < q
      · exact ⟨q, by simp [D.lt, h, h0], h0.le, h.le⟩
      · exact ⟨0, by simp [D.lt, h, h0], le_refl _, by norm_num⟩
    · exact ⟨1, by simp [D.lt, h], by norm_num, le_refl _⟩

theorem clamp01_fin (q : ℚ) : clamp01 (.fin q) = .fin (max 0 (min 1 q)) := by
  unfold clamp01 D.stdMax D.stdMin
  by_cases h : q < 1
  · by_cases h0 : 0 < q
    · simp [D.lt, h, h0, min_eq_right h.le, max_eq_right h0.le]
    · simp [D.lt, h, h0, min_eq_right h.le, max_eq_left (not_lt.1 h0)]
  · simp [D.lt, h, min_eq_left (not_lt.1 h)]

theorem stdMax_fin (a b : ℚ) : D.stdMax (.fin a) (.fin b) = .fin (max a b) := by
  unfold D.stdMax
  by_cases h : a < b
  · simp [D.lt, h, max_eq_right h.le]
  · simp [D.lt, h, max_eq_left (not_lt.1 h)]

theorem formatBar_spec (x : D) (w : Int) (hw : 0 ≤ w) :
    ∃ a b : Int, formatBar x w = .ok (a, b) ∧ 0 ≤ a ∧ 0 ≤ b ∧ a + b = w ∧
      ∃ q : ℚ, clamp01 x = .fin q ∧ (a : ℚ) ≤ q * w ∧ q * w < a + 1 := by
  obtain ⟨q, e, h0, h1⟩ := clamp01_range x
  have hw' : (0 : ℚ) ≤ w := by exact_mod_cast hw
  have hp : 0 ≤ q * w := mul_nonneg h0 hw'
  have hf0 : 0 ≤ ⌊q * (w : ℚ)⌋ := Int.floor_nonneg.2 hp
  have hfw : ⌊q * (w : ℚ)⌋ ≤ w := by
    have : (⌊q * (w : ℚ)⌋ : ℚ) ≤ w := (Int.floor_le _).trans (mul_le_of_le_one_left hw' h1)
    exact_mod_cast this
  refine ⟨⌊q * (w : ℚ)⌋, w - ⌊q * (w : ℚ)⌋, ?_, hf0, by omega, by omega, q, e, Int.floor_le _,
    Int.lt_floor_add_one _⟩
  unfold formatBar
  rw [e]
  dsimp only
  rw [if_pos hp, if_neg]
  simp; omega

variable (lg : ℚ → ℚ)

theorem block_ok (freeb : Bool) (i : Int) (s : Stage) :
    ∃ ls, block lg freeb i s = .ok ls ∧ ls.length = 3 := by
  unfold block
  split
  · exact ⟨_, rfl, rfl⟩
  · obtain ⟨a, b, h, -⟩ := formatBar_spec (computeProgress lg s) 50 (by norm_num)
    rw [h]
    exact ⟨_, rfl, rfl⟩

theorem blocks_ok (freeb : Bool) (i : Int) (ss : List Stage) :
    ∃ ls, blocks lg freeb i ss = .ok ls ∧ ls.length = 3 * ss.length := by
  induction ss generalizing i with
  | nil => exact ⟨[], rfl, rfl⟩
  | cons s ss ih =>
    obtain ⟨l, h, hl⟩ := block_ok lg freeb i s
    obtain ⟨ls, h', hl'⟩ := ih (i + 1)
    refine ⟨l ++ ls, ?_, ?_⟩
    · simp only [blocks, h, h', Outcome.bind_ok]
    · rw [List.length_append, hl, hl', List.length_cons]; omega

theorem display_ok (st : State) : ∃ ls, display lg st = .ok ls ∧ ls.length = 2 + 3 * st.stages.length := by
  obtain ⟨ls, h, hl⟩ := blocks_ok lg st.freeb 0 st.stages
  unfold display
  rw [h]
  refine ⟨_, rfl, ?_⟩
  simp only [List.length_cons, hl]; omega

theorem display_printed (st : State) (n : Nat) : display lg { st with printed := n } = display lg st := rfl

theorem stageAt_ok {st : State} {i : Int} (h0 : 0 ≤ i) (h1 : i < st.stages.length) :
    ∃ s, stageAt st i = .ok s := by
  unfold stageAt
  rw [if_neg (by omega)]
  have : i.toNat < st.stages.length := by omega
  rw [List.getElem?_eq_getElem this]
  exact ⟨_, rfl⟩

/-- the terminal: rows that were written and the row of the cursor (in the first column) -/
structure Screen where
  rows : Nat → Option Line
  row : Nat

/-- effect of a command on a terminal (of unlimited height; the cursor stops at the top) -/
def exec (s : Screen) : Out → Screen
  | .up n => { s with row := s.row - n }
  | .line l => ⟨fun k => if k = s.row then some l else s.rows k, s.row + 1⟩
  | .inPlace .. => s
  | .newline => { s with row := s.row + 1 }

theorem exec_lines (ls : List Line) (s : Screen) :
    (ls.map Out.line).foldl exec s =
      ⟨fun k => if s.row ≤ k ∧ k < s.row + ls.length then ls[k - s.row]? else s.rows k, s.row + ls.length⟩ := by
  induction ls generalizing s with
  | nil =>
    simp only [List.map_nil, List.foldl_nil, List.length_nil, Nat.add_zero]
    obtain ⟨r, c⟩ := s
    congr 1
    funext k
    rw [if_neg (by dsimp only; omega)]
  | cons l ls ih =>
    have e : exec s (.line l) = ⟨fun k => if k = s.row then some l else s.rows k, s.row + 1⟩ := rfl
    rw [List.map_cons, List.foldl_cons, e, ih]
    dsimp only
    rw [List.length_cons]
    congr 1
    · funext k
      by_cases h : k = s.row
      · subst h
        rw [if_neg (by omega), if_pos rfl, if_pos (by omega), Nat.sub_self]
        rfl
      · by_cases h2 : s.row + 1 ≤ k ∧ k < s.row + 1 + ls.length
        · rw [if_pos h2, if_pos (by omega)]
          obtain ⟨j, hj⟩ : ∃ j, k - s.row = j + 1 := ⟨k - s.row - 1, by omega⟩
          rw [hj, List.getElem?_cons_succ]
          congr 1; omega
        · rw [if_neg h2, if_neg h, if_neg (by omega)]
    · omega

/-- between calls: the current stage exists, the cursor stands below what was printed and nothing
    else was written -/
structure Inv (r0 : Nat) (start : Nat → Option Line) (st : State) (s : Screen) : Prop where
  cur : st.cur < st.stages.length
  mode : st.mode = .progress
  printed : st.printed ≤ 2 + 3 * st.stages.length
  row : s.row = r0 + st.printed
  rest : ∀ k, (k < r0 ∨ r0 + st.printed ≤ k) → s.rows k = start k

/-- the display of the state stands on the screen, from row `r0` to the cursor, and nothing else -/
def Shows (r0 : Nat) (start : Nat → Option Line) (st : State) (s : Screen) : Prop :=
  ∃ ls, display lg st = .ok ls ∧ s.row = r0 + ls.length ∧
    (∀ k < ls.length, s.rows (r0 + k) = ls[k]?) ∧
    ∀ k, (k < r0 ∨ r0 + ls.length ≤ k) → s.rows k = start k

variable {lg}

theorem render_spec {r0 : Nat} {start : Nat → Option Line} {st : State} {s : Screen}
    (h : Inv r0 start st s) : ∃ st' o, renderProgress lg st = .ok (st', o) ∧
      Inv r0 start st' (o.foldl exec s) ∧ Shows lg r0 start st' (o.foldl exec s) ∧ st'.stages = st.stages := by
  obtain ⟨ls, e, hl⟩ := display_ok lg st
  refine ⟨{ st with printed := ls.length }, (if 0 < st.printed then [.up st.printed] else []) ++ ls.map .line,
    by unfold renderProgress; rw [e]; rfl, ?_⟩
  have hup : ((if 0 < st.printed then [Out.up st.printed] else []) : List Out).foldl exec s = ⟨s.rows, r0⟩ := by
    split
    · simp only [List.foldl_cons, List.foldl_nil, exec]
      rw [h.row]; congr 1; omega
    · obtain ⟨rows, row⟩ := s
      have := h.row
      dsimp only at this
      simp only [List.foldl_nil]
      congr 1
      omega
  have hfin : ((if 0 < st.printed then [Out.up st.printed] else []) ++ ls.map Out.line).foldl exec s =
      ⟨fun k => if r0 ≤ k ∧ k < r0 + ls.length then ls[k - r0]? else s.rows k, r0 + ls.length⟩ := by
    rw [List.foldl_append, hup, exec_lines]
  have hp := h.printed
  have hrest : ∀ k, (k < r0 ∨ r0 + ls.length ≤ k) →
      (if r0 ≤ k ∧ k < r0 + ls.length then ls[k - r0]? else s.rows k) = start k := by
    intro k hk
    rw [if_neg (by omega)]
    exact h.rest k (by omega)
  refine ⟨⟨h.cur, h.mode, ?_, ?_, ?_⟩, ⟨ls, e, ?_, ?_, ?_⟩, rfl⟩
  · show ls.length ≤ 2 + 3 * st.stages.length
    omega
  · rw [hfin]
  · intro k hk
    rw [hfin]
    exact hrest k hk
  · rw [hfin]
  · intro k hk
    rw [hfin]
    dsimp only
    rw [if_pos (by omega), Nat.add_sub_cancel_left]
  · intro k hk
    rw [hfin]
    exact hrest k hk

theorem inv_set {r0 : Nat} {start : Nat → Option Line} {st : State} {s : Screen}
    (h : Inv r0 start st s) (i : Int) (g : Stage) : Inv r0 start (setStage st i g) s :=
  ⟨by have := h.cur; simpa [setStage] using this, h.mode, by have := h.printed; simpa [setStage] using this,
    h.row, h.rest⟩

end Verif.Logger
