import Verif.Jacobian.Model
import Verif.Partition.Props
import Mathlib.Tactic.Linarith
import Mathlib.Tactic.NormNum
import Mathlib.Tactic.Positivity
import Mathlib.Tactic.FieldSimp

/-!
# Lemmas on the Jacobian scan
-/
namespace Verif.Jacobian
open Verif Verif.Partition

/-- negative (including minus infinity) -/
def Neg (t : D) : Prop := D.lt t (.fin 0) = true
/-- positive (including plus infinity) -/
def Pos (t : D) : Prop := D.lt (.fin 0) t = true

/-- `2^-500` and `2^500` -/
def lo : ℚ := 1 / 2 ^ 500
def hi : ℚ := 2 ^ 500

theorem lo_pos : 0 < lo := by unfold lo; positivity
theorem hi_pos : 0 < hi := by unfold hi; positivity
set_option exponentiation.threshold 2000 in
theorem tiny_lt : tiny < lo * lo := by unfold tiny lo; norm_num
set_option exponentiation.threshold 2000 in
theorem lt_big : hi * hi < big := by unfold hi big; norm_num

theorem abs_zero_le_hi : |(0 : ℚ)| ≤ hi := le_of_eq_of_le abs_zero hi_pos.le

theorem dlt_trans {a b c : D} (h1 : D.lt a b = true) (h2 : D.lt b c = true) : D.lt a c = true := by
  cases a <;> cases b <;> cases c <;> simp_all [D.lt]
  exact h1.trans h2

theorem neg_ne {m : D} (h : Neg m) : isZero m = false := by
  unfold Neg isZero at *
  cases m <;> simp_all [D.lt]
  exact h.ne
theorem pos_ne {m : D} (h : Pos m) : isZero m = false := by
  unfold Pos isZero at *
  cases m <;> simp_all [D.lt]
  exact h.ne'

theorem nan_lt (t : D) : D.lt .nan t = false := by cases t <;> rfl
theorem lt_nan (t : D) : D.lt t .nan = false := by cases t <;> rfl

theorem stepMin_keep {m t : D} (h : m = .nan ∨ Neg m) : stepMin m t = .nan ∨ Neg (stepMin m t) := by
  unfold stepMin
  rcases h with rfl | h
  · left; simp [lt_nan, isZero]
  · right
    rw [neg_ne h, Bool.or_false]
    split
    · exact dlt_trans (by assumption) h
    · exact h

theorem stepMin_take {m t : D} (h : Neg t) : stepMin m t = .nan ∨ Neg (stepMin m t) := by
  by_cases hm : m = .nan ∨ Neg m
  · exact stepMin_keep hm
  · right
    have : (D.lt t m || isZero m) = true := by
      unfold Neg isZero at *
      cases m <;> cases t <;> simp_all [D.lt]
      left; linarith
    unfold stepMin; rw [if_pos this]; exact h

theorem stepMax_keep {m t : D} (h : m = .nan ∨ Pos m) : stepMax m t = .nan ∨ Pos (stepMax m t) := by
  unfold stepMax
  rcases h with rfl | h
  · left; simp [nan_lt, isZero]
  · right
    rw [pos_ne h, Bool.or_false]
    split
    · exact dlt_trans h (by assumption)
    · exact h

theorem stepMax_take {m t : D} (h : Pos t) : stepMax m t = .nan ∨ Pos (stepMax m t) := by
  by_cases hm : m = .nan ∨ Pos m
  · exact stepMax_keep hm
  · right
    have : (D.lt m t || isZero m) = true := by
      unfold Pos isZero at *
      cases m <;> cases t <;> simp_all [D.lt]
      left; linarith
    unfold stepMax; rw [if_pos this]; exact h

theorem stepMin_ninf_keep {m t : D} (h : m = .nan ∨ m = .ninf) :
    stepMin m t = .nan ∨ stepMin m t = .ninf := by
  unfold stepMin isZero
  rcases h with rfl | rfl <;> cases t <;> simp [D.lt]

theorem stepMin_ninf_take {m : D} : stepMin m .ninf = .nan ∨ stepMin m .ninf = .ninf := by
  unfold stepMin isZero
  cases m <;> simp [D.lt]

theorem stepMax_pinf_keep {m t : D} (h : m = .nan ∨ m = .pinf) :
    stepMax m t = .nan ∨ stepMax m t = .pinf := by
  unfold stepMax isZero
  rcases h with rfl | rfl <;> cases t <;> simp [D.lt]

theorem stepMax_pinf_take {m : D} : stepMax m .pinf = .nan ∨ stepMax m .pinf = .pinf := by
  unfold stepMax isZero
  cases m <;> simp [D.lt]

theorem mulR_bad_of_signs {a b : D} (ha : a = .nan ∨ Neg a) (hb : b = .nan ∨ Pos b)
    (ha' : ∀ q, a = .fin q → lo ≤ |q|) (hb' : ∀ q, b = .fin q → lo ≤ |q|) :
    (D.lt (mulR a b) (.fin 0) || !(mulR a b).isFinite) = true := by
  unfold Neg Pos at *
  rcases ha with rfl | ha
  · cases b <;> simp [mulR, D.mul, D.isFinite]
  rcases hb with rfl | hb
  · cases a <;> simp [mulR, D.mul, D.isFinite]
  cases a with
  | nan => simp [D.lt] at ha
  | pinf => simp [D.lt] at ha
  | ninf =>
    cases b with
    | nan => simp [D.lt] at hb
    | ninf => simp [D.lt] at hb
    | pinf => simp [mulR, D.mul, D.isFinite]
    | fin q =>
      simp only [D.lt, decide_eq_true_eq] at hb
      simp [mulR, D.mul, D.isFinite, hb.ne', hb]
  | fin p =>
    simp only [D.lt, decide_eq_true_eq] at ha
    cases b with
    | nan => simp [D.lt] at hb
    | ninf => simp [D.lt] at hb
    | pinf => simp [mulR, D.mul, D.isFinite, ha.ne, ha.le.not_gt]
    | fin q =>
      simp only [D.lt, decide_eq_true_eq] at hb
      have hpq : p * q < 0 := mul_neg_of_neg_of_pos ha hb
      have h1 := ha' p rfl
      have h2 := hb' q rfl
      have h3 : ¬ |p * q| ≤ tiny := by
        rw [abs_mul, not_le]
        exact lt_of_lt_of_le tiny_lt (mul_le_mul h1 h2 lo_pos.le (abs_nonneg _))
      simp only [mulR, h3, if_false, hpq.le.not_gt]
      split <;> simp [D.lt, D.isFinite, hpq]

theorem mulR_bad_of_ninf {a b : D} (ha : a = .nan ∨ a = .ninf) :
    (D.lt (mulR a b) (.fin 0) || !(mulR a b).isFinite) = true := by
  rcases ha with rfl | rfl <;> cases b <;> simp only [mulR, D.mul]
  all_goals first | rfl | (split; rfl; split <;> rfl)

theorem mulR_bad_of_pinf {a b : D} (hb : b = .nan ∨ b = .pinf) :
    (D.lt (mulR a b) (.fin 0) || !(mulR a b).isFinite) = true := by
  rcases hb with rfl | rfl <;> cases a <;> simp only [mulR, D.mul]
  all_goals first | rfl | (split; rfl; split <;> rfl)

/-- what a bad product says about its factors -/
theorem mulR_bad_inv {a b : D} (ha : ∀ q, a = .fin q → |q| ≤ hi)
    (hb : ∀ q, b = .fin q → |q| ≤ hi)
    (h : (D.lt (mulR a b) (.fin 0) || !(mulR a b).isFinite) = true) :
    (Neg a ∧ Pos b) ∨ (Pos a ∧ Neg b) ∨ a.isFinite = false ∨ b.isFinite = false := by
  cases a with
  | nan => simp [D.isFinite]
  | pinf => simp [D.isFinite]
  | ninf => simp [D.isFinite]
  | fin p =>
    cases b with
    | nan => simp [D.isFinite]
    | pinf => simp [D.isFinite]
    | ninf => simp [D.isFinite]
    | fin q =>
      have h1 := ha p rfl
      have h2 := hb q rfl
      have h3 : ¬ big ≤ |p * q| := by
        rw [abs_mul, not_le]
        exact lt_of_le_of_lt (mul_le_mul h1 h2 (abs_nonneg _) hi_pos.le) lt_big
      simp only [mulR, h3, if_false] at h
      split at h
      · simp [D.lt, D.isFinite] at h
      · simp [D.lt, D.isFinite] at h
        rcases mul_neg_iff.1 h with ⟨h, h'⟩ | ⟨h, h'⟩
        · right; left; simp [Neg, Pos, D.lt, h, h']
        · left; simp [Neg, Pos, D.lt, h, h']

theorem stepMin_mem {m t : D} : stepMin m t = t ∨ stepMin m t = m := by
  unfold stepMin; split <;> simp
theorem stepMax_mem {m t : D} : stepMax m t = t ∨ stepMax m t = m := by
  unfold stepMax; split <;> simp

theorem scan_mem {n : Int} (hn : 0 ≤ n) (tau : Int → D) :
    ((scan n tau).1 = .fin 0 ∨ ∃ i, 0 ≤ i ∧ i < n ∧ (scan n tau).1 = tau i) ∧
    ((scan n tau).2 = .fin 0 ∨ ∃ i, 0 ≤ i ∧ i < n ∧ (scan n tau).2 = tau i) := by
  unfold scan
  refine forRange_inv (lo := 0) (hi := n) hn _ _
    (fun (j : Int) (s : D × D) => (s.1 = .fin 0 ∨ ∃ i, 0 ≤ i ∧ i < j ∧ s.1 = tau i) ∧
      (s.2 = .fin 0 ∨ ∃ i, 0 ≤ i ∧ i < j ∧ s.2 = tau i)) (by simp) ?_
  rintro j ⟨a, b⟩ h1 h2 ⟨h3, h4⟩
  refine ⟨?_, ?_⟩
  · rcases stepMin_mem (m := a) (t := tau j) with h | h
    · exact .inr ⟨j, h1, by omega, h⟩
    · rcases h3 with h3 | ⟨i, hi, hi', e⟩
      · exact .inl (h.trans h3)
      · exact .inr ⟨i, hi, by omega, h.trans e⟩
  · rcases stepMax_mem (m := b) (t := tau j) with h | h
    · exact .inr ⟨j, h1, by omega, h⟩
    · rcases h4 with h4 | ⟨i, hi, hi', e⟩
      · exact .inl (h.trans h4)
      · exact .inr ⟨i, hi, by omega, h.trans e⟩

/-- a property of `minTau` that some entry establishes and every later entry keeps -/
theorem scan_min_of {n : Int} (hn : 0 ≤ n) (tau : Int → D) (P : D → Prop) {i : Int} (h0 : 0 ≤ i)
    (h1 : i < n) (ht : ∀ m, P (stepMin m (tau i))) (hk : ∀ m t, P m → P (stepMin m t)) :
    P (scan n tau).1 := by
  unfold scan
  refine (forRange_inv (lo := 0) (hi := n) hn _ _ (fun (j : Int) (s : D × D) => i < j → P s.1)
    (by omega) ?_) h1
  rintro j ⟨a, b⟩ _ _ h hij
  by_cases e : j = i
  · subst e; exact ht a
  · exact hk _ _ (h (by omega))

theorem scan_max_of {n : Int} (hn : 0 ≤ n) (tau : Int → D) (P : D → Prop) {i : Int} (h0 : 0 ≤ i)
    (h1 : i < n) (ht : ∀ m, P (stepMax m (tau i))) (hk : ∀ m t, P m → P (stepMax m t)) :
    P (scan n tau).2 := by
  unfold scan
  refine (forRange_inv (lo := 0) (hi := n) hn _ _ (fun (j : Int) (s : D × D) => i < j → P s.2)
    (by omega) ?_) h1
  rintro j ⟨a, b⟩ _ _ h hij
  by_cases e : j = i
  · subst e; exact ht b
  · exact hk _ _ (h (by omega))

/-- magnitudes for which the product neither underflows nor overflows -/
def Moderate (t : D) : Prop := ∀ q, t = .fin q → q = 0 ∨ (lo ≤ |q| ∧ |q| ≤ hi)

theorem localBad_of_signs {n : Int} (hn : 0 ≤ n) (tau : Int → D)
    (hm : ∀ i, 0 ≤ i → i < n → Moderate (tau i)) {i j : Int} (hi : 0 ≤ i ∧ i < n)
    (hj : 0 ≤ j ∧ j < n) (h1 : Neg (tau i)) (h2 : Pos (tau j)) : localBad n tau = true := by
  unfold localBad
  have a := scan_min_of hn tau (fun m => m = .nan ∨ Neg m) hi.1 hi.2 (fun m => stepMin_take h1)
    (fun m t h => stepMin_keep h)
  have b := scan_max_of hn tau (fun m => m = .nan ∨ Pos m) hj.1 hj.2 (fun m => stepMax_take h2)
    (fun m t h => stepMax_keep h)
  obtain ⟨c, d⟩ := scan_mem hn tau
  refine mulR_bad_of_signs a b ?_ ?_
  · intro q hq
    rw [hq] at a
    have hq0 : q < 0 := by simpa [Neg, D.lt] using a
    rcases c with c | ⟨k, hk, hk', c⟩
    · rw [hq] at c; injection c with c; linarith
    · rcases hm k hk hk' q (by rw [← c, hq]) with h | h
      · linarith
      · exact h.1
  · intro q hq
    rw [hq] at b
    have hq0 : 0 < q := by simpa [Pos, D.lt] using b
    rcases d with d | ⟨k, hk, hk', d⟩
    · rw [hq] at d; injection d with d; linarith
    · rcases hm k hk hk' q (by rw [← d, hq]) with h | h
      · linarith
      · exact h.1

theorem localBad_of_inf {n : Int} (hn : 0 ≤ n) (tau : Int → D) {i : Int} (hi : 0 ≤ i ∧ i < n)
    (h : tau i = .pinf ∨ tau i = .ninf) : localBad n tau = true := by
  unfold localBad
  rcases h with h | h
  · exact mulR_bad_of_pinf (scan_max_of hn tau (fun m => m = .nan ∨ m = .pinf) hi.1 hi.2
      (fun m => by rw [h]; exact stepMax_pinf_take) (fun m t h => stepMax_pinf_keep h))
  · exact mulR_bad_of_ninf (scan_min_of hn tau (fun m => m = .nan ∨ m = .ninf) hi.1 hi.2
      (fun m => by rw [h]; exact stepMin_ninf_take) (fun m t h => stepMin_ninf_keep h))

theorem localBad_inv {n : Int} (hn : 0 ≤ n) (tau : Int → D)
    (hm : ∀ i, 0 ≤ i → i < n → ∀ q, tau i = .fin q → |q| ≤ hi) (h : localBad n tau = true) :
    (∃ i j, (0 ≤ i ∧ i < n) ∧ (0 ≤ j ∧ j < n) ∧ Neg (tau i) ∧ Pos (tau j)) ∨
    ∃ i, (0 ≤ i ∧ i < n) ∧ (tau i).isFinite = false := by
  unfold localBad at h
  obtain ⟨c, d⟩ := scan_mem hn tau
  have n0 : ¬ Neg (.fin 0) := by simp [Neg, D.lt]
  have p0 : ¬ Pos (.fin 0) := by simp [Pos, D.lt]
  have f0 : ((D.fin 0).isFinite = false) ↔ False := by simp [D.isFinite]
  have := mulR_bad_inv (a := (scan n tau).1) (b := (scan n tau).2) ?_ ?_ h
  · rcases c with c | ⟨i, hi, hi', c⟩ <;> rcases d with d | ⟨j, hj, hj', d⟩ <;> rw [c, d] at this
    · simp [n0, p0, f0] at this
    · simp only [n0, p0, f0, false_and, false_or] at this
      exact .inr ⟨j, ⟨hj, hj'⟩, this⟩
    · simp only [n0, p0, f0, and_false, false_or, or_false] at this
      exact .inr ⟨i, ⟨hi, hi'⟩, this⟩
    · rcases this with ⟨a, b⟩ | ⟨a, b⟩ | a | a
      · exact .inl ⟨i, j, ⟨hi, hi'⟩, ⟨hj, hj'⟩, a, b⟩
      · exact .inl ⟨j, i, ⟨hj, hj'⟩, ⟨hi, hi'⟩, b, a⟩
      · exact .inr ⟨i, ⟨hi, hi'⟩, a⟩
      · exact .inr ⟨j, ⟨hj, hj'⟩, a⟩
  · intro q hq
    rcases c with c | ⟨i, hi, hi', c⟩
    · rw [hq] at c; have c' := D.fin.inj c; rw [c']; exact abs_zero_le_hi
    · exact hm i hi hi' q (by rw [← c, hq])
  · intro q hq
    rcases d with c | ⟨i, hi, hi', c⟩
    · rw [hq] at c; have c' := D.fin.inj c; rw [c']; exact abs_zero_le_hi
    · exact hm i hi hi' q (by rw [← c, hq])

/-- the entries of the local array are the values on the surfaces the thread holds -/
theorem local_index {nZnT : Int} (hz : 0 < nZnT) (g : Int → Int → D) (r : Ranges)
    {j kl : Int} (hj : holdsHalf r j) (hkl : 0 ≤ kl ∧ kl < nZnT) :
    ∃ i, (0 ≤ i ∧ i < (r.nsMaxH - r.nsMinH) * nZnT) ∧ localTau g nZnT r i = g j kl := by
  refine ⟨(j - r.nsMinH) * nZnT + kl, ⟨?_, ?_⟩, ?_⟩
  · have : 0 ≤ (j - r.nsMinH) * nZnT := Int.mul_nonneg (by have := hj.1; omega) hz.le
    omega
  · have h1 : (j - r.nsMinH + 1) * nZnT ≤ (r.nsMaxH - r.nsMinH) * nZnT :=
      Int.mul_le_mul_of_nonneg_right (by have := hj.2; omega) hz.le
    have h2 : (j - r.nsMinH + 1) * nZnT = (j - r.nsMinH) * nZnT + nZnT := by ring
    omega
  · have h0 : 0 ≤ (j - r.nsMinH) * nZnT + kl := by
      have : 0 ≤ (j - r.nsMinH) * nZnT := Int.mul_nonneg (by have := hj.1; omega) hz.le
      omega
    unfold localTau
    rw [Int.tdiv_eq_ediv_of_nonneg h0, Int.tmod_eq_emod_of_nonneg h0]
    have e1 : ((j - r.nsMinH) * nZnT + kl) / nZnT = j - r.nsMinH := by
      rw [add_comm, Int.add_mul_ediv_right _ _ hz.ne', Int.ediv_eq_zero_of_lt hkl.1 hkl.2]; ring
    have e2 : ((j - r.nsMinH) * nZnT + kl) % nZnT = kl := by
      rw [add_comm, Int.add_mul_emod_self_right, Int.emod_eq_of_lt hkl.1 hkl.2]
    rw [e1, e2]
    congr 1; ring

theorem local_index_inv {nZnT : Int} (hz : 0 < nZnT) (g : Int → Int → D) (r : Ranges) {i : Int}
    (hi : 0 ≤ i ∧ i < (r.nsMaxH - r.nsMinH) * nZnT) :
    ∃ j kl, holdsHalf r j ∧ (0 ≤ kl ∧ kl < nZnT) ∧ localTau g nZnT r i = g j kl := by
  refine ⟨r.nsMinH + i.tdiv nZnT, i.tmod nZnT, ⟨?_, ?_⟩, ⟨?_, ?_⟩, rfl⟩
  · have := Int.tdiv_nonneg hi.1 hz.le; omega
  · rw [Int.tdiv_eq_ediv_of_nonneg hi.1]
    have := Int.ediv_lt_of_lt_mul hz hi.2
    omega
  · exact Int.tmod_nonneg _ hi.1
  · exact Int.tmod_lt_of_pos _ hz

theorem teamBad_iff {g : Int → Int → D} {nZnT nt : Int} {R : Int → Ranges} (hnt : 0 ≤ nt) :
    teamBad g nZnT nt R = true ↔ ∃ t, isThread nt t ∧ threadBad g nZnT (R t) = true := by
  unfold teamBad
  have := forRange_inv (lo := 0) (hi := nt) hnt (fun t b => b || threadBad g nZnT (R t)) false
    (fun (j : Int) (b : Bool) => b = true ↔ ∃ t, (0 ≤ t ∧ t < j) ∧ threadBad g nZnT (R t) = true)
    (by constructor
        · intro h; simp at h
        · rintro ⟨t, ht, _⟩; omega) ?_
  · exact this
  · intro j b hj _ ih
    rw [Bool.or_eq_true, ih]
    constructor
    · rintro (⟨t, ht, h⟩ | h)
      · exact ⟨t, ⟨ht.1, by omega⟩, h⟩
      · exact ⟨j, ⟨hj, by omega⟩, h⟩
    · rintro ⟨t, ht, h⟩
      by_cases e : t = j
      · subst e; exact .inr h
      · exact .inl ⟨t, ⟨ht.1, by omega⟩, h⟩

/-- half-grid ranges of a team: thread 0 starts at 0, the last thread ends at `ns - 1`, neighbours
    share exactly one surface, and every half-grid surface is held by somebody -/
theorem half_facts {nt ns : Int} {lfreeb : Bool} {R : Int → Ranges} (hns : 2 ≤ ns) (hnt : 1 ≤ nt)
    (hT : Team nt ns lfreeb R) :
    (∀ t, isThread nt t → 0 ≤ (R t).nsMinH ∧ (R t).nsMinH < (R t).nsMaxH ∧ (R t).nsMaxH ≤ ns - 1) ∧
    (∀ t, isThread nt t → isThread nt (t + 1) → ∃ j, holdsHalf (R t) j ∧ holdsHalf (R (t + 1)) j) ∧
    (∀ j, 0 ≤ j → j < ns - 1 → ∃ t, isThread nt t ∧ holdsHalf (R t) j) := by
  have hn0 : 0 ≤ numSurfacesToDistribute ns lfreeb := n_nonneg (by omega)
  have hnle : numSurfacesToDistribute ns lfreeb ≤ ns ∧ ns - 1 ≤ numSurfacesToDistribute ns lfreeb := by
    unfold numSurfacesToDistribute; split <;> omega
  have hnt2 : nt ≤ ns / 2 := (team_facts hns hnt hT (t := 0) ⟨le_refl _, by omega⟩).1
  have hsz : ∀ t, splitMin (numSurfacesToDistribute ns lfreeb) nt t + 1 ≤
      splitMax (numSurfacesToDistribute ns lfreeb) nt t := by
    intro t; exact split_ge hn0 (by omega) (by omega) t
  refine ⟨?_, ?_, ?_⟩
  · intro t ht
    obtain ⟨_, h1, h2, h3, h4, h5, h6, _⟩ := team_facts hns hnt hT ht
    have := split_nonneg hn0 (show 0 < nt by omega) ht.1
    have := split_le hn0 (show 0 < nt by omega) ht.2
    have := hsz t
    have hm : (R t).nsMinF = 0 → 1 < ns := by intros; omega
    refine ⟨by omega, ?_, by omega⟩
    rw [h5, h6, h3, h4]
    rcases le_total 0 ((R t).nsMinF - 1) with h | h
    · rw [max_eq_right h]
      rcases le_total ns ((R t).nsMaxF + 1) with h' | h'
      · rw [min_eq_left h']; omega
      · rw [min_eq_right h']; omega
    · rw [max_eq_left h]
      rcases le_total ns ((R t).nsMaxF + 1) with h' | h'
      · rw [min_eq_left h']; omega
      · rw [min_eq_right h']; omega
  · intro t ht ht'
    obtain ⟨_, h1, h2, h3, h4, h5, h6, _⟩ := team_facts hns hnt hT ht
    obtain ⟨_, k1, k2, k3, k4, k5, k6, _⟩ := team_facts hns hnt hT ht'
    have e := splitMax_eq_succ hn0 (show 0 < nt by omega) t
    have := split_nonneg hn0 (show 0 < nt by omega) ht.1
    have := split_le hn0 (show 0 < nt by omega) ht'.2
    have := hsz t
    have := hsz (t + 1)
    refine ⟨(R t).nsMaxF - 1, ⟨?_, ?_⟩, ⟨?_, ?_⟩⟩ <;> omega
  · intro j hj0 hj1
    obtain ⟨t, ht0, ht1, h1, h2⟩ := split_exists hn0 (show 0 < nt by omega) (j := j) hj0 (by omega)
    obtain ⟨_, h1', h2', h3, h4, h5, h6, _⟩ := team_facts hns hnt hT (t := t) ⟨ht0, ht1⟩
    exact ⟨t, ⟨ht0, ht1⟩, by omega, by omega⟩

end Verif.Jacobian
