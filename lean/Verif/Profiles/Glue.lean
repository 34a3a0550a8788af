import Verif.Profiles.LineSeg

/-! Functions that are given piece by piece on the intervals between knots. -/
namespace Verif.Profiles
open Verif Filter Topology

/-- on each closed interval between neighbouring knots `f` is the given piece -/
def IsPieces (k : RVec) (f : ℝ → ℝ) (p : Int → ℝ → ℝ) : Prop :=
  ∀ i, 0 ≤ i → i + 1 < k.n → ∀ x, k.v i ≤ x → x ≤ k.v (i + 1) → f x = p i x

/-- a position of the open range is inside an interval or an interior knot -/
theorem locate (k : RVec) (hn : 1 ≤ k.n) (x : ℝ) (h0 : k.v 0 < x) (h1 : x < k.v (k.n - 1)) :
    ∃ i, 0 ≤ i ∧ i + 1 < k.n ∧
      ((k.v i < x ∧ x < k.v (i + 1)) ∨ (x = k.v (i + 1) ∧ i + 2 < k.n ∧ k.v i < x)) := by
  have hn' : ((k.n - 1).toNat : Int) = k.n - 1 := by omega
  obtain ⟨i, hi, ha, hb⟩ := segment_exists k (k.n - 1).toNat x h0 (by rw [hn']; exact h1.le)
  refine ⟨i, by omega, by omega, ?_⟩
  rcases lt_or_eq_of_le hb with h | h
  · exact Or.inl ⟨ha, h⟩
  · refine Or.inr ⟨h, ?_, ha⟩
    by_contra hc
    have : (i : Int) + 1 = k.n - 1 := by omega
    rw [this] at h
    linarith

/-- if the pieces of `g` are the derivatives of the pieces of `f`, then `g` is the derivative of `f` -/
theorem glue (k : RVec) (hk : Increasing k) (hn : 1 ≤ k.n) (f g : ℝ → ℝ) (p q : Int → ℝ → ℝ)
    (hf : IsPieces k f p) (hg : IsPieces k g q)
    (hd : ∀ i, 0 ≤ i → i + 1 < k.n → ∀ x, HasDerivAt (p i) (q i x) x) (x : ℝ) (h0 : k.v 0 < x)
    (h1 : x < k.v (k.n - 1)) : HasDerivAt f (g x) x := by
  obtain ⟨i, hi0, hi1, hx⟩ := locate k hn x h0 h1
  rcases hx with ⟨ha, hb⟩ | ⟨rfl, hi2, ha⟩
  · rw [hg i hi0 hi1 x ha.le hb.le]
    refine (hd i hi0 hi1 x).congr_of_eventuallyEq ?_
    filter_upwards [Ioo_mem_nhds ha hb] with y hy
    exact hf i hi0 hi1 y hy.1.le hy.2.le
  · have hlt := hk (i + 1) (i + 2) (by omega) (by omega) hi2
    have e : i + 1 + 1 = i + 2 := by ring
    have hl : HasDerivWithinAt f (g (k.v (i + 1))) (Set.Iic (k.v (i + 1))) (k.v (i + 1)) := by
      rw [hg i hi0 hi1 _ ha.le le_rfl]
      refine ((hd i hi0 hi1 _).hasDerivWithinAt).congr_of_eventuallyEq ?_ (hf i hi0 hi1 _ ha.le le_rfl)
      filter_upwards [mem_nhdsWithin_of_mem_nhds (Ioi_mem_nhds ha), self_mem_nhdsWithin] with y hy hy'
      exact hf i hi0 hi1 y (le_of_lt hy) hy'
    have hr : HasDerivWithinAt f (g (k.v (i + 1))) (Set.Ici (k.v (i + 1))) (k.v (i + 1)) := by
      have h3 : i + 1 + 1 < k.n := by omega
      rw [hg (i + 1) (by omega) h3 _ le_rfl (by rw [e]; exact hlt.le)]
      refine ((hd (i + 1) (by omega) h3 _).hasDerivWithinAt).congr_of_eventuallyEq ?_
        (hf (i + 1) (by omega) h3 _ le_rfl (by rw [e]; exact hlt.le))
      filter_upwards [mem_nhdsWithin_of_mem_nhds (Iio_mem_nhds hlt), self_mem_nhdsWithin] with y hy hy'
      exact hf (i + 1) (by omega) h3 y hy' (by rw [e]; exact le_of_lt hy)
    have := hl.union hr
    rwa [Set.Iic_union_Ici, hasDerivWithinAt_univ] at this

/-- a function with continuous pieces is continuous on the closed range -/
theorem pieces_continuousOn (k : RVec) (hk : Increasing k) (f : ℝ → ℝ) (p : Int → ℝ → ℝ) (hf : IsPieces k f p)
    (hp : ∀ i, 0 ≤ i → i + 1 < k.n → Continuous (p i)) (n : Nat) (hn : (n : Int) < k.n) :
    ContinuousOn f (Set.Icc (k.v 0) (k.v n)) := by
  induction n with
  | zero => simp
  | succ n ih =>
    push_cast at hn
    have h1 := hk.le (i := 0) (j := n) le_rfl (by omega) (by omega)
    have h2 := hk.le (i := n) (j := n + 1) (by omega) (by omega) (by omega)
    have e : Set.Icc (k.v 0) (k.v ((n + 1 : Nat) : Int)) = Set.Icc (k.v 0) (k.v n) ∪ Set.Icc (k.v n) (k.v (n + 1)) := by
      push_cast
      exact (Set.Icc_union_Icc_eq_Icc h1 h2).symm
    rw [e]
    refine ContinuousOn.union_of_isClosed (ih (by omega)) ?_ isClosed_Icc isClosed_Icc
    exact (hp n (by omega) (by omega)).continuousOn.congr fun x hx => hf n (by omega) (by omega) x hx.1 hx.2

/-- the integral of `g` between the first knot and `x`, if the pieces of `g` are the derivatives of those of
    `f` and `f` is zero at the first knot -/
theorem pieces_integral (k : RVec) (hk : Increasing k) (hn : 1 ≤ k.n) (f g : ℝ → ℝ) (p q : Int → ℝ → ℝ)
    (hf : IsPieces k f p) (hg : IsPieces k g q) (hp : ∀ i, 0 ≤ i → i + 1 < k.n → Continuous (p i))
    (hq : ∀ i, 0 ≤ i → i + 1 < k.n → Continuous (q i))
    (hd : ∀ i, 0 ≤ i → i + 1 < k.n → ∀ x, HasDerivAt (p i) (q i x) x) (hz : f (k.v 0) = 0)
    (x : ℝ) (h0 : k.v 0 ≤ x) (h1 : x ≤ k.v (k.n - 1)) : f x = ∫ t in (k.v 0)..x, g t := by
  have hn' : ((k.n - 1).toNat : Int) = k.n - 1 := by omega
  have cf := pieces_continuousOn k hk f p hf hp (k.n - 1).toNat (by omega)
  have cg := pieces_continuousOn k hk g q hg hq (k.n - 1).toNat (by omega)
  rw [hn'] at cf cg
  have hsub : Set.Icc (k.v 0) x ⊆ Set.Icc (k.v 0) (k.v (k.n - 1)) := Set.Icc_subset_Icc_right h1
  rw [intervalIntegral.integral_eq_sub_of_hasDerivAt_of_le h0 (cf.mono hsub) (f' := g)]
  · rw [hz, sub_zero]
  · intro t ht
    exact glue k hk hn f g p q hf hg hd t ht.1 (lt_of_lt_of_le ht.2 h1)
  · apply ContinuousOn.intervalIntegrable
    rw [Set.uIcc_of_le h0]
    exact cg.mono hsub

end Verif.Profiles
