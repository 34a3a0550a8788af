import Verif.Nestor.LaplaceGreen

/-! # The linear system element by element -/
namespace Verif.Nestor
open Verif Fourier Finset

theorem addAt_apply (a : Int → ℝ) (i : Int) (v : ℝ) (x : Int) : addAt a i v x = a x + if x = i then v else 0 := by
  unfold addAt; split <;> simp
theorem setAt_apply (a : Int → ℝ) (i : Int) (v : ℝ) (x : Int) : setAt a i v x = if x = i then v else a x := rfl

/-- a loop that may set a value to zero -/
theorem forRange_zero {lo hi : Int} (P : Int → Prop) [DecidablePred P] [Decidable (∃ j, lo ≤ j ∧ j < hi ∧ P j)] (v : ℝ) :
    forRange lo hi (fun j v => if P j then 0 else v) v = if ∃ j, lo ≤ j ∧ j < hi ∧ P j then 0 else v := by
  rcases le_total hi lo with h | h
  · rw [forRange_empty h, if_neg (by rintro ⟨j, a, b, _⟩; omega)]
  · classical
    have := forRange_inv h (fun j v => if P j then (0 : ℝ) else v) v
      (fun i t => t = if ∃ j, lo ≤ j ∧ j < i ∧ P j then 0 else v)
      (by rw [if_neg (by rintro ⟨j, a, b, _⟩; omega)])
      (by
        intro j t h1 h2 ih
        by_cases hp : P j
        · rw [if_pos hp, if_pos ⟨j, h1, by omega, hp⟩]
        · rw [if_neg hp, ih]
          have : (∃ i, lo ≤ i ∧ i < j ∧ P i) ↔ ∃ i, lo ≤ i ∧ i < j + 1 ∧ P i := by
            constructor
            · rintro ⟨i, a, b, e⟩; exact ⟨i, a, by omega, e⟩
            · rintro ⟨i, a, b, e⟩
              refine ⟨i, a, ?_, e⟩
              have : i ≠ j := by rintro rfl; exact hp e
              omega
          simp only [this])
    rw [this]
    congr

namespace System
variable (y : System)

/-- the kinds of unknowns -/
def Has (a : Par) : Prop := a = .sin ∨ y.lasym = true

/-- place of the unknown of kind `a` and mode `i` -/
def ix (a : Par) (i : Int) : Int :=
  match a with
  | .sin => i
  | .cos => i + y.mnpd

/-- a mode `m = 0`, `n < 0` -/
def Redundant (i : Int) : Prop := ∃ n, 0 ≤ n ∧ n < y.nf ∧ i = n * (y.mf + 1)

/-- sum over the kinds of unknowns -/
noncomputable def kinds (f : Par → ℝ) : ℝ := if y.lasym then f .sin + f .cos else f .sin

variable {y}

theorem ix_range {a : Par} (ha : y.Has a) {i : Int} (h0 : 0 ≤ i) (h1 : i < y.mnpd) : 0 ≤ y.ix a i ∧ y.ix a i < y.dim := by
  rcases ha with rfl | h
  · unfold ix dim; simp only []; split <;> omega
  · unfold ix dim; rw [if_pos h]; cases a <;> simp only [] <;> omega

theorem ix_inj {a b : Par} {i j : Int} (h0 : 0 ≤ i) (h1 : i < y.mnpd) (k0 : 0 ≤ j) (k1 : j < y.mnpd) (h : y.ix a i = y.ix b j) : a = b ∧ i = j := by
  cases a <;> cases b <;> simp only [ix] at h <;> first | exact ⟨rfl, by omega⟩ | omega

theorem pos_inj {a b a' b' : Par} (ha : y.Has a) (ha' : y.Has a') {i j i' j' : Int} (h0 : 0 ≤ i) (h1 : i < y.mnpd)
    (k0 : 0 ≤ j) (k1 : j < y.mnpd) (h0' : 0 ≤ i') (h1' : i' < y.mnpd) (k0' : 0 ≤ j') (k1' : j' < y.mnpd)
    (h : y.ix a i + y.ix b j * y.dim = y.ix a' i' + y.ix b' j' * y.dim) : (a = a' ∧ i = i') ∧ (b = b' ∧ j = j') := by
  obtain ⟨p0, p1⟩ := ix_range ha h0 h1
  obtain ⟨q0, q1⟩ := ix_range ha' h0' h1'
  rw [add_comm, add_comm (y.ix a' i')] at h
  obtain ⟨e1, e2⟩ := flat_inj p0 p1 q0 q1 h
  exact ⟨ix_inj h0 h1 h0' h1' e2, ix_inj k0 k1 k0' k1' e1⟩

theorem sum2 (N : Int) {i j : Int} (h0 : 0 ≤ i) (h1 : i < N) (k0 : 0 ≤ j) (k1 : j < N) (f : Int → Int → ℝ)
    (hf : ∀ j' i', 0 ≤ j' → j' < N → 0 ≤ i' → i' < N → ¬(i' = i ∧ j' = j) → f j' i' = 0) :
    ∑ j' ∈ Ico 0 N, ∑ i' ∈ Ico 0 N, f j' i' = f j i := by
  rw [sum_eq_single j, sum_eq_single i]
  · intro i' hi hne
    rw [mem_Ico] at hi
    exact hf _ _ k0 k1 hi.1 hi.2 (by tauto)
  · intro h; rw [mem_Ico] at h; omega
  · intro j' hj hne
    rw [mem_Ico] at hj
    refine sum_eq_zero fun i' hi => ?_
    rw [mem_Ico] at hi
    exact hf _ _ hj.1 hj.2 hi.1 hi.2 (by tauto)
  · intro h; rw [mem_Ico] at h; omega

theorem forRange_at {lo hi : Int} (f : Int → (Int → ℝ) → Int → ℝ) (t : Int → Int → ℝ)
    (hf : ∀ j s x, lo ≤ j → j < hi → f j s x = s x + t j x) (s : Int → ℝ) (x : Int) :
    forRange lo hi f s x = s x + ∑ j ∈ Ico lo hi, t j x :=
  forRange_measure f (fun s => s x) (fun j => t j x) (fun j b h0 h1 => hf j b x h0 h1) s

theorem addBlocks_at (b : Par → Par → Int → Int → ℝ) (A : Int → ℝ) {p q : Par} (hp : y.Has p) (hq : y.Has q) {i j : Int}
    (h0 : 0 ≤ i) (h1 : i < y.mnpd) (k0 : 0 ≤ j) (k1 : j < y.mnpd) :
    y.addBlocks b A (y.ix p i + y.ix q j * y.dim) = A (y.ix p i + y.ix q j * y.dim) + b p q i j := by
  unfold addBlocks
  by_cases hl : y.lasym = true
  · simp only [hl, Bool.not_true, Bool.false_eq_true, if_false]
    have hs : ∀ p : Par, y.Has p := fun p => Or.inr hl
    have key : ∀ j' i' (s : Int → ℝ) (x : Int), addAt (addAt (addAt (addAt s (i' + j' * y.dim) (b .sin .sin i' j'))
          (i' + (j' + y.mnpd) * y.dim) (b .sin .cos i' j')) ((i' + y.mnpd) + j' * y.dim) (b .cos .sin i' j'))
          ((i' + y.mnpd) + (j' + y.mnpd) * y.dim) (b .cos .cos i' j') x
        = s x + ((((if x = y.ix .sin i' + y.ix .sin j' * y.dim then b .sin .sin i' j' else 0)
          + if x = y.ix .sin i' + y.ix .cos j' * y.dim then b .sin .cos i' j' else 0)
          + if x = y.ix .cos i' + y.ix .sin j' * y.dim then b .cos .sin i' j' else 0)
          + if x = y.ix .cos i' + y.ix .cos j' * y.dim then b .cos .cos i' j' else 0) := by
      intro j' i' s x
      have as : ∀ s A B C D : ℝ, s + A + B + C + D = s + (A + B + C + D) := by intros; ring
      rw [addAt_apply, addAt_apply, addAt_apply, addAt_apply]
      exact as _ _ _ _ _
    rw [forRange_at _ fun j' x => ∑ i' ∈ Ico 0 y.mnpd, ((((if x = y.ix .sin i' + y.ix .sin j' * y.dim then b .sin .sin i' j' else 0)
          + if x = y.ix .sin i' + y.ix .cos j' * y.dim then b .sin .cos i' j' else 0)
          + if x = y.ix .cos i' + y.ix .sin j' * y.dim then b .cos .sin i' j' else 0)
          + if x = y.ix .cos i' + y.ix .cos j' * y.dim then b .cos .cos i' j' else 0)]
    · congr 1
      rw [sum2 y.mnpd h0 h1 k0 k1]
      · have t : ∀ a d : Par, (y.ix p i + y.ix q j * y.dim = y.ix a i + y.ix d j * y.dim) = (p = a ∧ q = d) := by
          intro a d
          apply propext
          constructor
          · intro h
            obtain ⟨⟨e1, _⟩, e2, _⟩ := pos_inj (hs _) (hs _) h0 h1 k0 k1 h0 h1 k0 k1 h
            exact ⟨e1, e2⟩
          · rintro ⟨rfl, rfl⟩; rfl
        simp only [t]
        cases p <;> cases q <;> simp
      · intro j' i' a1 a2 a3 a4 hne
        have t : ∀ a d : Par, ¬ y.ix p i + y.ix q j * y.dim = y.ix a i' + y.ix d j' * y.dim := by
          intro a d h
          obtain ⟨⟨_, e1⟩, _, e2⟩ := pos_inj (hs _) (hs _) h0 h1 k0 k1 a3 a4 a1 a2 h
          exact hne ⟨e1.symm, e2.symm⟩
        simp only [t, if_false, add_zero]
    · intro j' s x _ _
      rw [forRange_at _ fun i' x => ((((if x = y.ix .sin i' + y.ix .sin j' * y.dim then b .sin .sin i' j' else 0)
          + if x = y.ix .sin i' + y.ix .cos j' * y.dim then b .sin .cos i' j' else 0)
          + if x = y.ix .cos i' + y.ix .sin j' * y.dim then b .cos .sin i' j' else 0)
          + if x = y.ix .cos i' + y.ix .cos j' * y.dim then b .cos .cos i' j' else 0)]
      exact fun i' s x _ _ => key j' i' s x
  · have hps : p = .sin := by rcases hp with h | h; · exact h
                              · exact absurd h hl
    have hqs : q = .sin := by rcases hq with h | h; · exact h
                              · exact absurd h hl
    subst hps hqs
    have hd : y.dim = y.mnpd := by unfold dim; rw [if_neg hl]
    simp only [hl, Bool.not_false, if_true]
    rw [forRange_at _ fun j' x => ∑ i' ∈ Ico 0 y.mnpd, if x = j' * y.mnpd + i' then b .sin .sin i' j' else 0]
    · congr 1
      rw [sum2 y.mnpd h0 h1 k0 k1]
      · rw [if_pos (by simp only [ix]; rw [hd]; ring)]
      · intro j' i' a1 a2 a3 a4 hne
        rw [if_neg]
        simp only [ix]
        rw [hd, add_comm]
        intro h
        obtain ⟨e1, e2⟩ := flat_inj h0 h1 a3 a4 h
        exact hne ⟨e2.symm, e1.symm⟩
    · intro j' s x _ _
      rw [forRange_at _ fun i' x => if x = j' * y.mnpd + i' then b .sin .sin i' j' else 0]
      intro i' s x _ _
      exact addAt_apply _ _ _ _

theorem redundant_lt (hm : 0 ≤ y.mf) {n : Int} (h0 : 0 ≤ n) (h1 : n < y.nf) : 0 ≤ n * (y.mf + 1) ∧ n * (y.mf + 1) < y.mnpd := by
  unfold mnpd
  constructor
  · positivity
  · nlinarith

theorem zeroRows_at (hm : 0 ≤ y.mf) (A : Int → ℝ) {p q : Par} (hp : y.Has p) (hq : y.Has q) {i j : Int}
    (h0 : 0 ≤ i) (h1 : i < y.mnpd) (k0 : 0 ≤ j) (k1 : j < y.mnpd) [Decidable (y.Redundant i)] :
    y.zeroRows A (y.ix p i + y.ix q j * y.dim) = if y.Redundant i then 0 else A (y.ix p i + y.ix q j * y.dim) := by
  classical
  set x := y.ix p i + y.ix q j * y.dim with hx
  -- the entry that an iteration sets to zero
  have body : ∀ mnp n (s : Int → ℝ), 0 ≤ mnp → mnp < y.mnpd → 0 ≤ n → n < y.nf →
      (if !y.lasym then setAt s ((mnp * (2 * y.nf + 1) + n) * (y.mf + 1) + 0) 0
        else setAt (setAt (setAt (setAt s (n * (y.mf + 1) + 0 + mnp * y.dim) 0) (n * (y.mf + 1) + 0 + (mnp + y.mnpd) * y.dim) 0)
          (n * (y.mf + 1) + 0 + y.mnpd + mnp * y.dim) 0) (n * (y.mf + 1) + 0 + y.mnpd + (mnp + y.mnpd) * y.dim) 0) x
        = if mnp = j ∧ i = n * (y.mf + 1) then 0 else s x := by
    intro mnp n s a1 a2 a3 a4
    obtain ⟨r0, r1⟩ := redundant_lt hm a3 a4
    by_cases hl : y.lasym = true
    · have hs : ∀ p : Par, y.Has p := fun p => Or.inr hl
      have t : ∀ a d : Par, (x = y.ix a (n * (y.mf + 1)) + y.ix d mnp * y.dim) = ((p = a ∧ q = d) ∧ (mnp = j ∧ i = n * (y.mf + 1))) := by
        intro a d
        apply propext
        rw [hx]
        constructor
        · intro h
          obtain ⟨⟨e1, e2⟩, e3, e4⟩ := pos_inj (hs _) (hs _) h0 h1 k0 k1 r0 r1 a1 a2 h
          exact ⟨⟨e1, e3⟩, e4.symm, e2⟩
        · rintro ⟨⟨rfl, rfl⟩, rfl, rfl⟩; rfl
      have t1 := t .sin .sin
      have t2 := t .sin .cos
      have t3 := t .cos .sin
      have t4 := t .cos .cos
      simp only [ix] at t1 t2 t3 t4
      simp only [hl, Bool.not_true, Bool.false_eq_true, if_false, add_zero, setAt_apply, t1, t2, t3, t4]
      by_cases hh : mnp = j ∧ i = n * (y.mf + 1)
      · cases p <;> cases q <;> simp [hh]
      · simp only [hh, and_false, if_false]
    · have hps : p = .sin := by rcases hp with h | h; · exact h
                                · exact absurd h hl
      have hqs : q = .sin := by rcases hq with h | h; · exact h
                                · exact absurd h hl
      subst hps hqs
      have hd : y.dim = y.mnpd := by unfold dim; rw [if_neg hl]
      simp only [hl, Bool.not_false, if_true, add_zero, setAt_apply]
      have t : (x = (mnp * (2 * y.nf + 1) + n) * (y.mf + 1)) = (mnp = j ∧ i = n * (y.mf + 1)) := by
        apply propext
        rw [hx]
        simp only [ix]
        rw [hd, show (mnp * (2 * y.nf + 1) + n) * (y.mf + 1) = mnp * y.mnpd + n * (y.mf + 1) by unfold mnpd; ring, add_comm]
        constructor
        · intro h
          obtain ⟨e1, e2⟩ := flat_inj h0 h1 r0 r1 h
          exact ⟨e1.symm, e2⟩
        · rintro ⟨rfl, rfl⟩; rfl
      simp only [t]
  have inner : ∀ mnp (s : Int → ℝ), 0 ≤ mnp → mnp < y.mnpd →
      forRange 0 y.nf (fun n a =>
        if !y.lasym then setAt a ((mnp * (2 * y.nf + 1) + n) * (y.mf + 1) + 0) 0
        else setAt (setAt (setAt (setAt a (n * (y.mf + 1) + 0 + mnp * y.dim) 0) (n * (y.mf + 1) + 0 + (mnp + y.mnpd) * y.dim) 0)
          (n * (y.mf + 1) + 0 + y.mnpd + mnp * y.dim) 0) (n * (y.mf + 1) + 0 + y.mnpd + (mnp + y.mnpd) * y.dim) 0) s x
        = if mnp = j ∧ y.Redundant i then 0 else s x := by
    intro mnp s a1 a2
    rcases le_total y.nf 0 with hn | hn
    · rw [forRange_empty hn, if_neg]
      rintro ⟨_, n, b0, b1, _⟩; omega
    · have := forRange_inv hn (fun n a =>
          if !y.lasym then setAt a ((mnp * (2 * y.nf + 1) + n) * (y.mf + 1) + 0) 0
          else setAt (setAt (setAt (setAt a (n * (y.mf + 1) + 0 + mnp * y.dim) 0) (n * (y.mf + 1) + 0 + (mnp + y.mnpd) * y.dim) 0)
            (n * (y.mf + 1) + 0 + y.mnpd + mnp * y.dim) 0) (n * (y.mf + 1) + 0 + y.mnpd + (mnp + y.mnpd) * y.dim) 0) s
        (fun n a => a x = forRange 0 n (fun n v => if mnp = j ∧ i = n * (y.mf + 1) then 0 else v) (s x))
        (by rw [forRange_empty le_rfl])
        (by
          intro n a b0 b1 ih
          rw [body mnp n a a1 a2 b0 b1, forRange_succ (by omega), ih])
      rw [this, forRange_zero fun n => mnp = j ∧ i = n * (y.mf + 1)]
      have e : (∃ n, 0 ≤ n ∧ n < y.nf ∧ mnp = j ∧ i = n * (y.mf + 1)) ↔ mnp = j ∧ y.Redundant i := by
        unfold Redundant
        constructor
        · rintro ⟨n, b0, b1, e, e'⟩; exact ⟨e, n, b0, b1, e'⟩
        · rintro ⟨e, n, b0, b1, e'⟩; exact ⟨n, b0, b1, e, e'⟩
      simp only [e]
  unfold zeroRows
  have hN : 0 ≤ y.mnpd := by omega
  have := forRange_inv hN (fun mnp a => forRange 0 y.nf (fun n a =>
      if !y.lasym then setAt a ((mnp * (2 * y.nf + 1) + n) * (y.mf + 1) + 0) 0
      else setAt (setAt (setAt (setAt a (n * (y.mf + 1) + 0 + mnp * y.dim) 0) (n * (y.mf + 1) + 0 + (mnp + y.mnpd) * y.dim) 0)
        (n * (y.mf + 1) + 0 + y.mnpd + mnp * y.dim) 0) (n * (y.mf + 1) + 0 + y.mnpd + (mnp + y.mnpd) * y.dim) 0) a) A
    (fun mnp a => a x = forRange 0 mnp (fun mnp v => if mnp = j ∧ y.Redundant i then 0 else v) (A x))
    (by rw [forRange_empty le_rfl])
    (by
      intro mnp a b0 b1 ih
      rw [inner mnp a b0 b1, forRange_succ (by omega), ih])
  rw [this, forRange_zero fun mnp => mnp = j ∧ y.Redundant i]
  have e : (∃ mnp, 0 ≤ mnp ∧ mnp < y.mnpd ∧ mnp = j ∧ y.Redundant i) ↔ y.Redundant i := by
    constructor
    · rintro ⟨_, _, _, _, h⟩; exact h
    · intro h; exact ⟨j, k0, k1, rfl, h⟩
  simp only [e]

variable (y)
/-- what is added to the diagonal -/
noncomputable def diag (p : Par) (i : Int) : ℝ := 0.5 + if p = .cos ∧ i = y.nf * (y.mf + 1) then 0.5 else 0
variable {y}

theorem mn0_range (hm : 0 ≤ y.mf) (hn : 0 ≤ y.nf) : 0 ≤ y.nf * (y.mf + 1) ∧ y.nf * (y.mf + 1) < y.mnpd := by
  unfold mnpd
  constructor
  · positivity
  · nlinarith

theorem addDiagonal_at (hm : 0 ≤ y.mf) (hn : 0 ≤ y.nf) (A : Int → ℝ) {p q : Par} (hp : y.Has p) (hq : y.Has q) {i j : Int}
    (h0 : 0 ≤ i) (h1 : i < y.mnpd) (k0 : 0 ≤ j) (k1 : j < y.mnpd) :
    y.addDiagonal A (y.ix p i + y.ix q j * y.dim) = A (y.ix p i + y.ix q j * y.dim) + if p = q ∧ i = j then y.diag p i else 0 := by
  set x := y.ix p i + y.ix q j * y.dim with hx
  unfold addDiagonal
  by_cases hl : y.lasym = true
  · have hs : ∀ p : Par, y.Has p := fun p => Or.inr hl
    have t : ∀ (a : Par) mn, 0 ≤ mn → mn < y.mnpd → (x = y.ix a mn + y.ix a mn * y.dim) = ((p = a ∧ q = a) ∧ mn = i ∧ i = j) := by
      intro a mn b0 b1
      apply propext
      rw [hx]
      constructor
      · intro h
        obtain ⟨⟨e1, e2⟩, e3, e4⟩ := pos_inj (hs _) (hs _) h0 h1 k0 k1 b0 b1 b0 b1 h
        exact ⟨⟨e1, e3⟩, e2.symm, by rw [e2, e4]⟩
      · rintro ⟨⟨rfl, rfl⟩, rfl, rfl⟩; rfl
    obtain ⟨z0, z1⟩ := mn0_range hm hn
    simp only [hl, Bool.not_true, Bool.false_eq_true, if_false]
    rw [addAt_apply, forRange_at _ fun mn x => (if x = y.ix .sin mn + y.ix .sin mn * y.dim then (0.5 : ℝ) else 0)
      + if x = y.ix .cos mn + y.ix .cos mn * y.dim then (0.5 : ℝ) else 0]
    · have e1 : ∑ mn ∈ Ico 0 y.mnpd, ((if x = y.ix .sin mn + y.ix .sin mn * y.dim then (0.5 : ℝ) else 0)
          + if x = y.ix .cos mn + y.ix .cos mn * y.dim then (0.5 : ℝ) else 0) = if p = q ∧ i = j then 0.5 else 0 := by
        rw [sum_eq_single i]
        · simp only [t .sin i h0 h1, t .cos i h0 h1]
          cases p <;> cases q <;> simp
        · intro mn hmn hne
          rw [mem_Ico] at hmn
          simp only [t .sin mn hmn.1 hmn.2, t .cos mn hmn.1 hmn.2]
          simp [hne]
        · intro h; rw [mem_Ico] at h; omega
      have e2 : (x = y.nf * (y.mf + 1) + y.mnpd + (y.nf * (y.mf + 1) + y.mnpd) * y.dim) = ((p = .cos ∧ q = .cos) ∧ y.nf * (y.mf + 1) = i ∧ i = j) :=
        t .cos _ z0 z1
      rw [e1]
      simp only [e2, diag]
      clear t e1 e2
      by_cases hij : i = j
      · by_cases h2 : y.nf * (y.mf + 1) = i
        · cases p <;> cases q <;> simp only [hij, h2, h2.symm, reduceCtorEq, and_self, and_true, true_and, and_false, false_and, if_true, if_false] <;>
            (first | ring | (simp only [← hij, h2, if_true]; ring))
        · have h3 : ¬ i = y.nf * (y.mf + 1) := fun h => h2 h.symm
          have h4 : ¬ j = y.nf * (y.mf + 1) := hij ▸ h3
          have h5 : ¬ y.nf * (y.mf + 1) = j := hij ▸ h2
          cases p <;> cases q <;> simp only [h2, h3, h4, h5, reduceCtorEq, and_true, true_and, and_false, false_and, if_true, if_false, hij] <;> ring
      · simp only [hij, and_false, if_false]; ring
    · intro mn s x' b0 b1
      rw [addAt_apply, addAt_apply, add_assoc (s x')]
      rfl
  · have hps : p = .sin := by rcases hp with h | h; · exact h
                              · exact absurd h hl
    have hqs : q = .sin := by rcases hq with h | h; · exact h
                              · exact absurd h hl
    subst hps hqs
    have hd : y.dim = y.mnpd := by unfold dim; rw [if_neg hl]
    simp only [hl, Bool.not_false, if_true]
    rw [forRange_at _ fun mn x => if x = mn * y.mnpd + mn then (0.5 : ℝ) else 0]
    · congr 1
      have t : ∀ mn, 0 ≤ mn → mn < y.mnpd → (x = mn * y.mnpd + mn) = (mn = i ∧ i = j) := by
        intro mn b0 b1
        apply propext
        rw [hx]
        simp only [ix]
        rw [hd, add_comm]
        constructor
        · intro h
          obtain ⟨e1, e2⟩ := flat_inj h0 h1 b0 b1 h
          exact ⟨e2.symm, by rw [e1, e2]⟩
        · rintro ⟨rfl, rfl⟩; rfl
      rw [sum_eq_single i]
      · simp only [t i h0 h1]
        simp [diag]
      · intro mn hmn hne
        rw [mem_Ico] at hmn
        simp only [t mn hmn.1 hmn.2]
        simp [hne]
      · intro h; rw [mem_Ico] at h; omega
    · intro mn s x' b0 b1
      exact addAt_apply _ _ _ _

theorem foldl_blocks (L : List (Par → Par → Int → Int → ℝ)) (A : Int → ℝ) {p q : Par} (hp : y.Has p) (hq : y.Has q) {i j : Int}
    (h0 : 0 ≤ i) (h1 : i < y.mnpd) (k0 : 0 ≤ j) (k1 : j < y.mnpd) :
    L.foldl (fun a b => y.addBlocks b a) A (y.ix p i + y.ix q j * y.dim) = A (y.ix p i + y.ix q j * y.dim) + (L.map fun b => b p q i j).sum := by
  induction L generalizing A with
  | nil => simp
  | cons b L ih =>
    rw [List.foldl_cons, ih, addBlocks_at b A hp hq h0 h1 k0 k1, List.map_cons, List.sum_cons, add_assoc]

/-- an entry of the matrix -/
theorem buildMatrix_at (hm : 0 ≤ y.mf) (hn : 0 ≤ y.nf) (L : List (Par → Par → Int → Int → ℝ)) {p q : Par} (hp : y.Has p) (hq : y.Has q) {i j : Int}
    (h0 : 0 ≤ i) (h1 : i < y.mnpd) (k0 : 0 ≤ j) (k1 : j < y.mnpd) [Decidable (y.Redundant i)] :
    y.buildMatrix L (y.ix p i + y.ix q j * y.dim)
      = (if y.Redundant i then 0 else (L.map fun b => b p q i j).sum) + if p = q ∧ i = j then y.diag p i else 0 := by
  unfold buildMatrix
  rw [addDiagonal_at hm hn _ hp hq h0 h1 k0 k1, zeroRows_at hm _ hp hq h0 h1 k0 k1, foldl_blocks L _ hp hq h0 h1 k0 k1, zero_add]

/-! ## right-hand side -/

theorem addVec_at (nfp : ℝ) (v : (Par → Int → ℝ) × (Par → Int → ℝ)) (A : Int → ℝ) {p : Par} (hp : y.Has p) {i : Int} (h0 : 0 ≤ i) (h1 : i < y.mnpd) :
    y.addVec nfp v A (y.ix p i) = A (y.ix p i) + (v.1 p i + v.2 p i / nfp) := by
  have e1 : ∀ (A : Int → ℝ) x, forRange 0 y.mnpd (fun i a => addAt a i (v.1 .sin i + v.2 .sin i * (1 / nfp))) A x
      = A x + ∑ i ∈ Ico 0 y.mnpd, if x = i then v.1 .sin i + v.2 .sin i * (1 / nfp) else 0 := by
    intro A x
    exact forRange_at _ (fun i x => if x = i then v.1 .sin i + v.2 .sin i * (1 / nfp) else 0) (fun i s x _ _ => addAt_apply _ _ _ _) A x
  have e2 : ∀ (A : Int → ℝ) x, forRange 0 y.mnpd (fun i a => addAt a (y.mnpd + i) (v.1 .cos i + v.2 .cos i * (1 / nfp))) A x
      = A x + ∑ i ∈ Ico 0 y.mnpd, if x = y.mnpd + i then v.1 .cos i + v.2 .cos i * (1 / nfp) else 0 := by
    intro A x
    exact forRange_at _ (fun i x => if x = y.mnpd + i then v.1 .cos i + v.2 .cos i * (1 / nfp) else 0) (fun i s x _ _ => addAt_apply _ _ _ _) A x
  unfold addVec
  have hit : ∑ i' ∈ Ico 0 y.mnpd, (if i = i' then v.1 .sin i' + v.2 .sin i' * (1 / nfp) else 0) = v.1 .sin i + v.2 .sin i * (1 / nfp) := by
    rw [sum_eq_single i]
    · rw [if_pos rfl]
    · intro j _ hne; rw [if_neg (by omega)]
    · intro h; rw [mem_Ico] at h; omega
  cases p
  · simp only [ix]
    split
    · rw [e2, e1, hit, sum_eq_zero, add_zero, mul_one_div]
      intro j hj
      rw [mem_Ico] at hj
      rw [if_neg (by omega)]
    · rw [e1, hit, mul_one_div]
  · have hl : y.lasym = true := by rcases hp with h | h; · cases h
                                   · exact h
    simp only [ix, hl, if_true]
    rw [e2, e1]
    have z : ∑ i' ∈ Ico 0 y.mnpd, (if i + y.mnpd = i' then v.1 .sin i' + v.2 .sin i' * (1 / nfp) else 0) = 0 := by
      refine sum_eq_zero fun j hj => ?_
      rw [mem_Ico] at hj
      rw [if_neg (by omega)]
    rw [z, add_zero, sum_eq_single i]
    · rw [if_pos (by ring), mul_one_div]
    · intro j _ hne; rw [if_neg (by omega)]
    · intro h; rw [mem_Ico] at h; omega

/-- an entry of the right-hand side -/
theorem buildVector_at (hm : 0 ≤ y.mf) (nfp : ℝ) (L : List ((Par → Int → ℝ) × (Par → Int → ℝ))) {p : Par} (hp : y.Has p) {i : Int}
    (h0 : 0 ≤ i) (h1 : i < y.mnpd) [Decidable (y.Redundant i)] :
    y.buildVector nfp L (y.ix p i) = if y.Redundant i then 0 else (L.map fun v => v.1 p i + v.2 p i / nfp).sum := by
  classical
  have hf : ∀ (L : List ((Par → Int → ℝ) × (Par → Int → ℝ))) (A : Int → ℝ), L.foldl (fun a v => y.addVec nfp v a) A (y.ix p i)
      = A (y.ix p i) + (L.map fun v => v.1 p i + v.2 p i / nfp).sum := by
    intro L
    induction L with
    | nil => intro A; simp
    | cons b L ih =>
      intro A
      rw [List.foldl_cons, ih, addVec_at nfp b A hp h0 h1, List.map_cons, List.sum_cons, add_assoc]
  unfold buildVector
  have hb : ∀ n (s : Int → ℝ), 0 ≤ n → n < y.nf →
      (if y.lasym then setAt (setAt s (n * (y.mf + 1) + 0) 0) (y.mnpd + n * (y.mf + 1) + 0) 0 else setAt s (n * (y.mf + 1) + 0) 0) (y.ix p i)
        = if i = n * (y.mf + 1) then 0 else s (y.ix p i) := by
    intro n s b0 b1
    obtain ⟨r0, r1⟩ := redundant_lt hm b0 b1
    cases p
    · simp only [ix, add_zero]
      split
      · rw [setAt_apply, setAt_apply, if_neg (by omega)]
      · rw [setAt_apply]
    · have hl : y.lasym = true := by rcases hp with h | h; · cases h
                                     · exact h
      simp only [ix, hl, if_true, add_zero]
      rw [setAt_apply, setAt_apply]
      have : (i + y.mnpd = y.mnpd + n * (y.mf + 1)) = (i = n * (y.mf + 1)) := by apply propext; omega
      simp only [this]
      split
      · rfl
      · rw [if_neg (by omega)]
  rcases le_total y.nf 0 with hn | hn
  · rw [forRange_empty hn, hf, zero_add, if_neg]
    rintro ⟨n, b0, b1, _⟩; omega
  · have := forRange_inv hn (fun n a =>
        if y.lasym then setAt (setAt a (n * (y.mf + 1) + 0) 0) (y.mnpd + n * (y.mf + 1) + 0) 0 else setAt a (n * (y.mf + 1) + 0) 0)
      (L.foldl (fun a v => y.addVec nfp v a) fun _ => 0)
      (fun n a => a (y.ix p i) = forRange 0 n (fun n v => if i = n * (y.mf + 1) then 0 else v) (L.foldl (fun a v => y.addVec nfp v a) (fun _ => 0) (y.ix p i)))
      (by rw [forRange_empty le_rfl])
      (by
        intro n a b0 b1 ih
        rw [hb n a b0 b1, forRange_succ (by omega), ih])
    rw [this, forRange_zero fun n => i = n * (y.mf + 1), hf, zero_add]
    unfold Redundant
    congr

/-! ## equations -/

theorem sum_dim (f : Int → ℝ) (hN : 0 ≤ y.mnpd) : ∑ j ∈ Ico 0 y.dim, f j = y.kinds fun q => ∑ j ∈ Ico 0 y.mnpd, f (y.ix q j) := by
  unfold dim kinds
  split
  · rw [sum_Ico_split hN (show y.mnpd ≤ 2 * y.mnpd by omega)]
    congr 1
    have := sum_shift y.mnpd y.mnpd f
    rw [show 2 * y.mnpd = y.mnpd + y.mnpd by ring, ← this]
    exact sum_congr rfl fun j _ => by rw [add_comm]; rfl
  · rfl

theorem kinds_congr {f g : Par → ℝ} (h : ∀ q, y.Has q → f q = g q) : y.kinds f = y.kinds g := by
  unfold kinds
  split
  · rename_i hl
    rw [h .sin (Or.inl rfl), h .cos (Or.inr hl)]
  · rw [h .sin (Or.inl rfl)]

theorem kinds_add (f g : Par → ℝ) : y.kinds (fun q => f q + g q) = y.kinds f + y.kinds g := by
  unfold kinds; split <;> ring

theorem kinds_single {p : Par} (hp : y.Has p) (v : ℝ) : y.kinds (fun q => if p = q then v else 0) = v := by
  unfold kinds
  rcases hp with rfl | h
  · simp
  · rw [if_pos h]; cases p <;> simp

theorem row_eq (hm : 0 ≤ y.mf) (hn : 0 ≤ y.nf) (L : List (Par → Par → Int → Int → ℝ)) (x : Int → ℝ) {p : Par} (hp : y.Has p) {i : Int}
    (h0 : 0 ≤ i) (h1 : i < y.mnpd) [Decidable (y.Redundant i)] :
    ∑ j ∈ Ico 0 y.dim, y.buildMatrix L (y.ix p i + j * y.dim) * x j
      = (if y.Redundant i then 0 else y.kinds fun q => ∑ j ∈ Ico 0 y.mnpd, (L.map fun b => b p q i j).sum * x (y.ix q j)) + y.diag p i * x (y.ix p i) := by
  rw [sum_dim _ (by omega)]
  have e : y.kinds (fun q => ∑ j ∈ Ico 0 y.mnpd, y.buildMatrix L (y.ix p i + y.ix q j * y.dim) * x (y.ix q j))
      = y.kinds (fun q => (if y.Redundant i then 0 else ∑ j ∈ Ico 0 y.mnpd, (L.map fun b => b p q i j).sum * x (y.ix q j))
        + if p = q then y.diag p i * x (y.ix p i) else 0) := by
    refine kinds_congr fun q hq => ?_
    have e1 : ∀ j ∈ Ico 0 y.mnpd, y.buildMatrix L (y.ix p i + y.ix q j * y.dim) * x (y.ix q j)
        = (if y.Redundant i then 0 else (L.map fun b => b p q i j).sum * x (y.ix q j)) + if p = q ∧ i = j then y.diag p i * x (y.ix p i) else 0 := by
      intro j hj
      rw [mem_Ico] at hj
      rw [buildMatrix_at hm hn L hp hq h0 h1 hj.1 hj.2, add_mul]
      congr 1
      · split <;> simp
      · split
        · rename_i h; obtain ⟨rfl, rfl⟩ := h; rfl
        · simp
    rw [sum_congr rfl e1, sum_add_distrib]
    congr 1
    · split <;> simp
    · by_cases hpq : p = q
      · simp only [hpq, true_and, if_true]
        rw [sum_ite_eq, if_pos (by rw [mem_Ico]; omega)]
      · simp [hpq]
  rw [e, kinds_add, kinds_single hp]
  congr 1
  by_cases h : y.Redundant i
  · simp only [h, if_true]; unfold kinds; split <;> simp
  · simp only [h, if_false]

theorem not_mn0 {i : Int} (h : y.Redundant i) (hm : 0 ≤ y.mf) : y.diag p i = 0.5 := by
  obtain ⟨n, h0, h1, rfl⟩ := h
  unfold diag
  rw [if_neg, add_zero]
  rintro ⟨_, h⟩
  have := mul_right_cancel₀ (show y.mf + 1 ≠ 0 by omega) h
  omega

end System
end Verif.Nestor
