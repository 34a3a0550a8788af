import Verif.Asym.Adjoint

/-!
# What `symforce` does to the arrays, and sums over the full poloidal interval
-/
namespace Verif.Asym
open Verif Verif.Fourier Partition Finset Transform

variable {c : Ctx}

/-- a loop over the reduced points of a surface that changes each of them once -/
theorem upd_nest (h : Full c) (j : Int) (val : Int → Int → ℝ → ℝ) (g : Int → ℝ) :
    let g1 := forRange 0 c.s.nZeta (fun k f => forRange 0 c.s.nThetaReduced (fun l f =>
      upd f (cell c c.r.nsMinF j k l) (val k l (f (cell c c.r.nsMinF j k l)))) f) g
    (∀ k l, 0 ≤ k → k < c.s.nZeta → 0 ≤ l → l < c.s.nThetaReduced →
      g1 (cell c c.r.nsMinF j k l) = val k l (g (cell c c.r.nsMinF j k l))) ∧
    ∀ i, (∀ k l, 0 ≤ k → k < c.s.nZeta → 0 ≤ l → l < c.s.nThetaReduced → i ≠ cell c c.r.nsMinF j k l) → g1 i = g i := by
  have hz := h.zeta
  have hred := h.red
  have hev := h.even
  have inner : ∀ k, 0 ≤ k → k < c.s.nZeta → ∀ t : Int → ℝ,
      let t1 := forRange 0 c.s.nThetaReduced (fun l f => upd f (cell c c.r.nsMinF j k l) (val k l (f (cell c c.r.nsMinF j k l)))) t
      (∀ l, 0 ≤ l → l < c.s.nThetaReduced → t1 (cell c c.r.nsMinF j k l) = val k l (t (cell c c.r.nsMinF j k l))) ∧
      ∀ i, (∀ l, 0 ≤ l → l < c.s.nThetaReduced → i ≠ cell c c.r.nsMinF j k l) → t1 i = t i := by
    intro k k0 k1 t
    have := forRange_inv (lo := 0) (hi := c.s.nThetaReduced) (by omega)
      (fun l f => upd f (cell c c.r.nsMinF j k l) (val k l (f (cell c c.r.nsMinF j k l)))) t
      (fun L t1 => (∀ l, 0 ≤ l → l < L → t1 (cell c c.r.nsMinF j k l) = val k l (t (cell c c.r.nsMinF j k l))) ∧
        ∀ i, (∀ l, 0 ≤ l → l < L → i ≠ cell c c.r.nsMinF j k l) → t1 i = t i) ⟨by intro l; omega, fun i _ => rfl⟩ (by
        rintro L t1 L0 L1 ⟨p1, p2⟩
        refine ⟨fun l l0 l1 => ?_, fun i hi => ?_⟩
        · show (if cell c c.r.nsMinF j k l = cell c c.r.nsMinF j k L then _ else _) = _
          by_cases e : l = L
          · subst e
            rw [if_pos rfl, p2]
            intro l' l0' l1' e
            have := (cell_inj h ⟨k0, k1⟩ ⟨l0, by omega⟩ ⟨k0, k1⟩ ⟨l0', by omega⟩ e).2.2
            omega
          · rw [if_neg, p1 l l0 (by omega)]
            intro e'
            exact e (cell_inj h ⟨k0, k1⟩ ⟨l0, by omega⟩ ⟨k0, k1⟩ ⟨L0, by omega⟩ e').2.2
        · show (if i = cell c c.r.nsMinF j k L then _ else _) = _
          rw [if_neg (hi L L0 (by omega))]
          exact p2 i fun l l0 l1 => hi l l0 (by omega))
    exact this
  have := forRange_inv (lo := 0) (hi := c.s.nZeta) (by omega)
    (fun k f => forRange 0 c.s.nThetaReduced (fun l f => upd f (cell c c.r.nsMinF j k l) (val k l (f (cell c c.r.nsMinF j k l)))) f) g
    (fun K g1 => (∀ k l, 0 ≤ k → k < K → 0 ≤ l → l < c.s.nThetaReduced → g1 (cell c c.r.nsMinF j k l) = val k l (g (cell c c.r.nsMinF j k l))) ∧
      ∀ i, (∀ k l, 0 ≤ k → k < K → 0 ≤ l → l < c.s.nThetaReduced → i ≠ cell c c.r.nsMinF j k l) → g1 i = g i) ⟨by intro k l; omega, fun i _ => rfl⟩ (by
      rintro K g1 K0 K1 ⟨p1, p2⟩
      obtain ⟨q1, q2⟩ := inner K K0 K1 g1
      refine ⟨fun k l k0 k1 l0 l1 => ?_, fun i hi => ?_⟩
      · by_cases e : k = K
        · subst e
          rw [q1 l l0 l1, p2]
          intro k' l' k0' k1' l0' l1' e
          have := (cell_inj h ⟨k0, by omega⟩ ⟨l0, by omega⟩ ⟨k0', by omega⟩ ⟨l0', by omega⟩ e).2.1
          omega
        · rw [q2, p1 k l k0 (by omega) l0 l1]
          intro l' l0' l1' e'
          exact e (cell_inj h ⟨k0, by omega⟩ ⟨l0, by omega⟩ ⟨K0, K1⟩ ⟨l0', by omega⟩ e').2.1
      · rw [q2 i fun l l0 l1 => hi K l K0 (by omega) l0 l1]
        exact p2 i fun k l k0 k1 l0 l1 => hi k l k0 (by omega) l0 l1)
  exact this

/-- sign of the symmetric part of a force under the reflection -/
def sgnF (std : Bool) : ℝ := if std then 1 else -1

/-- value of an array at the reflected point -/
def atRev (c : Ctx) (f : Int → ℝ) (j k l : Int) : ℝ := f (cell c c.r.nsMinF j (kRev c k) (lRev c l))

theorem fold_eq (h : Full c) (lo hi : Int) (hle : lo ≤ hi) (std : Bool) (f fa : Int → ℝ) :
    ∀ j k l, lo ≤ j → j < hi → 0 ≤ k → k < c.s.nZeta → 0 ≤ l → l < c.s.nThetaReduced →
      (fold c lo hi std f fa).1 (cell c c.r.nsMinF j k l) = (f (cell c c.r.nsMinF j k l) + sgnF std * atRev c f j k l) / 2 ∧
      (fold c lo hi std f fa).2 (cell c c.r.nsMinF j k l) = (f (cell c c.r.nsMinF j k l) - sgnF std * atRev c f j k l) / 2 := by
  have hred := h.red
  have hev := h.even
  have := forRange_inv (lo := lo) (hi := hi) hle (fun jF (s : (Int → ℝ) × (Int → ℝ)) =>
    (foldSym c jF s.1 (foldAsym c std jF s.1 s.2), foldAsym c std jF s.1 s.2)) (f, fa)
    (fun J s => (∀ j k l, lo ≤ j → j < J → 0 ≤ k → k < c.s.nZeta → 0 ≤ l → l < c.s.nThetaReduced →
        s.1 (cell c c.r.nsMinF j k l) = (f (cell c c.r.nsMinF j k l) + sgnF std * atRev c f j k l) / 2 ∧
        s.2 (cell c c.r.nsMinF j k l) = (f (cell c c.r.nsMinF j k l) - sgnF std * atRev c f j k l) / 2) ∧
      ∀ j k l, J ≤ j → 0 ≤ k → k < c.s.nZeta → 0 ≤ l → l < c.s.nThetaEven → s.1 (cell c c.r.nsMinF j k l) = f (cell c c.r.nsMinF j k l))
    ⟨by intro j k l; omega, fun _ _ _ _ _ _ _ _ => rfl⟩ (by
      rintro J s J0 J1 ⟨p1, p2⟩
      obtain ⟨a1, a2⟩ := upd_nest h J (fun k l _ => if std then 0.5 * (s.1 (cell c c.r.nsMinF J k l) - s.1 (cell c c.r.nsMinF J (kRev c k) (lRev c l)))
        else 0.5 * (s.1 (cell c c.r.nsMinF J k l) + s.1 (cell c c.r.nsMinF J (kRev c k) (lRev c l)))) s.2
      obtain ⟨b1, b2⟩ := upd_nest h J (fun k l x => x - foldAsym c std J s.1 s.2 (cell c c.r.nsMinF J k l)) s.1
      have other : ∀ j k l, j ≠ J → 0 ≤ k → k < c.s.nZeta → 0 ≤ l → l < c.s.nThetaEven → ∀ k' l', 0 ≤ k' → k' < c.s.nZeta → 0 ≤ l' →
          l' < c.s.nThetaReduced → cell c c.r.nsMinF j k l ≠ cell c c.r.nsMinF J k' l' := by
        intro j k l hj k0 k1 l0 l1 k' l' k0' k1' l0' l1' e
        exact hj (cell_inj h ⟨k0, k1⟩ ⟨l0, l1⟩ ⟨k0', k1'⟩ ⟨l0', by omega⟩ e).1
      refine ⟨fun j k l j0 j1 k0 k1 l0 l1 => ?_, fun j k l hj k0 k1 l0 l1 => ?_⟩
      · by_cases e : j = J
        · subst e
          have hr := kRev_range h ⟨k0, k1⟩
          have hl := lRev_range h (l := l) ⟨l0, by omega⟩
          have c1 := p2 j k l (by omega) k0 k1 l0 (by omega)
          have c2 := p2 j (kRev c k) (lRev c l) (by omega) hr.1 hr.2 hl.1 hl.2
          have d1 : foldAsym c std j s.1 s.2 (cell c c.r.nsMinF j k l) = (f (cell c c.r.nsMinF j k l) - sgnF std * atRev c f j k l) / 2 := by
            refine Eq.trans (a1 k l k0 k1 l0 l1) ?_
            rw [c1, c2]
            unfold atRev sgnF
            split <;> ring
          refine ⟨?_, d1⟩
          refine Eq.trans (b1 k l k0 k1 l0 l1) ?_
          rw [d1, c1]; ring
        · obtain ⟨q1, q2⟩ := p1 j k l j0 (by omega) k0 k1 l0 l1
          refine ⟨Eq.trans (b2 _ ?_) q1, Eq.trans (a2 _ ?_) q2⟩
          · exact other j k l e k0 k1 l0 (by omega)
          · exact other j k l e k0 k1 l0 (by omega)
      · exact Eq.trans (b2 _ (other j k l (by omega) k0 k1 l0 l1)) (p2 j k l (by omega) k0 k1 l0 l1))
  exact this.1

/-- **`symforce`** splits every force into its two parts -/
theorem symforce_eq (h : Full c) (h3 : c.s.lthreed = true) (d da : FArr → Bool → Int → ℝ) (a : FArr) (e : Bool) {j k l : Int}
    (hj : c.r.nsMinF ≤ j ∧ j < foldEnd c a) (hk : 0 ≤ k ∧ k < c.s.nZeta) (hl : 0 ≤ l ∧ l < c.s.nThetaReduced) :
    (symforce c d da).1 a e (cell c c.r.nsMinF j k l) =
      (d a e (cell c c.r.nsMinF j k l) + sgnF (stdParity a) * atRev c (d a e) j k l) / 2 ∧
    (symforce c d da).2 a e (cell c c.r.nsMinF j k l) =
      (d a e (cell c c.r.nsMinF j k l) - sgnF (stdParity a) * atRev c (d a e) j k l) / 2 := by
  have := fold_eq h c.r.nsMinF (foldEnd c a) (by omega) (stdParity a) (d a e) (da a e) j k l hj.1 hj.2 hk.1 hk.2 hl.1 hl.2
  unfold symforce
  dsimp only
  rw [if_neg (by rw [h3]; simp)]
  exact this

/-! ## Sums over the full interval -/

theorem sum_kRev (h : Full c) (F : Int → ℝ) : ∑ k ∈ Ico 0 c.s.nZeta, F (kRev c k) = ∑ k ∈ Ico 0 c.s.nZeta, F k := by
  refine Finset.sum_nbij' (kRev c) (kRev c) ?_ ?_ ?_ ?_ ?_
  · intro k hk; rw [Finset.mem_Ico] at *; exact kRev_range h hk
  · intro k hk; rw [Finset.mem_Ico] at *; exact kRev_range h hk
  · intro k hk; rw [Finset.mem_Ico] at hk; exact kRev_kRev h hk
  · intro k hk; rw [Finset.mem_Ico] at hk; exact kRev_kRev h hk
  · intro k _; rfl

theorem sum_lRev (h : Full c) (F : Int → ℝ) : ∑ l ∈ Ico 0 c.s.nThetaEven, F (lRev c l) = ∑ l ∈ Ico 0 c.s.nThetaEven, F l := by
  refine Finset.sum_nbij' (lRev c) (lRev c) ?_ ?_ ?_ ?_ ?_
  · intro k hk; rw [Finset.mem_Ico] at *; exact lRev_range h hk
  · intro k hk; rw [Finset.mem_Ico] at *; exact lRev_range h hk
  · intro k hk; rw [Finset.mem_Ico] at hk; exact lRev_lRev h hk
  · intro k hk; rw [Finset.mem_Ico] at hk; exact lRev_lRev h hk
  · intro k _; rfl

/-- the reflection permutes the grid -/
theorem rev_sum (h : Full c) (F : Int → Int → ℝ) :
    ∑ k ∈ Ico 0 c.s.nZeta, ∑ l ∈ Ico 0 c.s.nThetaEven, F (kRev c k) (lRev c l) =
      ∑ k ∈ Ico 0 c.s.nZeta, ∑ l ∈ Ico 0 c.s.nThetaEven, F k l := by
  rw [sum_kRev h fun k => ∑ l ∈ Ico 0 c.s.nThetaEven, F k (lRev c l)]
  exact Finset.sum_congr rfl fun k _ => sum_lRev h (F k)

/-- half of an interval -/
theorem fold_range (M : Int) (hM : 1 ≤ M) (g : Int → ℝ) (hg : ∀ l, 1 ≤ l → l < M → g (2 * M - l) = g l) :
    ∑ l ∈ Ico 0 (2 * M), g l = g 0 + g M + 2 * ∑ l ∈ Ico 1 M, g l := by
  rw [sum_Ico_split (show (0:Int) ≤ M by omega) (show M ≤ 2 * M by omega)]
  rw [sum_Ico_int_first (show (0:Int) < M by omega), sum_Ico_int_first (show M < 2 * M by omega)]
  have : ∑ l ∈ Ico (M + 1) (2 * M), g l = ∑ l ∈ Ico 1 M, g l := by
    refine Finset.sum_nbij' (fun j => 2 * M - j) (fun j => 2 * M - j) ?_ ?_ ?_ ?_ ?_
    · intro j h; rw [Finset.mem_Ico] at *; omega
    · intro j h; rw [Finset.mem_Ico] at *; omega
    · intro j _; ring
    · intro j _; ring
    · intro j h
      rw [Finset.mem_Ico] at h
      have := hg (2 * M - j) (by omega) (by omega)
      rw [← this]
      congr 1
      ring
  rw [this]; ring

/-- the weight of the full grid -/
noncomputable def fw (c : Ctx) : ℝ := 1 / (c.s.nZeta * c.s.nThetaEven : Int)

/-- a symmetric function: integral over the reduced interval with the weights of the tables -/
theorem half_sum (h : Full c) (F : Int → Int → ℝ)
    (hF : ∀ k l, 0 ≤ k → k < c.s.nZeta → 0 ≤ l → l < c.s.nThetaEven → F (kRev c k) (lRev c l) = F k l) :
    ∑ k ∈ Ico 0 c.s.nZeta, ∑ l ∈ Ico 0 c.s.nThetaEven, fw c * F k l =
      ∑ k ∈ Ico 0 c.s.nZeta, ∑ l ∈ Ico 0 c.s.nThetaReduced, pw c l * F k l := by
  have hred := h.red
  have hev := h.even
  rw [Finset.sum_comm, Finset.sum_comm (t := Ico 0 c.s.nThetaReduced)]
  have hH : ∀ l, 1 ≤ l → l < c.s.nThetaReduced - 1 → ∑ k ∈ Ico 0 c.s.nZeta, fw c * F k (2 * (c.s.nThetaReduced - 1) - l) =
      ∑ k ∈ Ico 0 c.s.nZeta, fw c * F k l := by
    intro l l0 l1
    rw [← hev, ← lRev_pos h (l := l) (by omega) (by omega), ← sum_kRev h]
    refine Finset.sum_congr rfl fun k hk => ?_
    rw [Finset.mem_Ico] at hk
    rw [hF k l hk.1 hk.2 (by omega) (by omega)]
  rw [hev, fold_range (c.s.nThetaReduced - 1) (by omega) _ hH]
  rw [show (c.s.nThetaReduced : Int) = (c.s.nThetaReduced - 1) + 1 by ring, sum_Ico_int_succ (by omega),
    sum_Ico_int_first (hi := c.s.nThetaReduced - 1) (by omega)]
  rw [show c.s.nThetaReduced - 1 + 1 - 1 = c.s.nThetaReduced - 1 by ring]
  have hw : (1 / (c.s.nZeta * (c.s.nThetaReduced - 1) : Int) : ℝ) = 2 * fw c := by
    unfold fw
    rw [hev]
    push_cast
    have h1 : (c.s.nZeta : ℝ) ≠ 0 := by
      have : (1:ℝ) ≤ c.s.nZeta := by exact_mod_cast h.zeta
      linarith
    have h2 : (c.s.nThetaReduced : ℝ) - 1 ≠ 0 := by
      have : (2:ℝ) ≤ c.s.nThetaReduced := by exact_mod_cast hred
      linarith
    field_simp
  have e0 : pw c 0 = fw c := by
    unfold pw; rw [hw]; simp
  have e1 : pw c (c.s.nThetaReduced - 1) = fw c := by
    unfold pw; rw [hw]; simp
  have e2 : ∀ l ∈ Ico 1 (c.s.nThetaReduced - 1), pw c l = 2 * fw c := by
    intro l hl
    rw [Finset.mem_Ico] at hl
    unfold pw
    rw [hw, if_neg (by omega), div_one]
  rw [e0, e1, zero_add, Finset.mul_sum]
  have e3 : ∀ l ∈ Ico 1 (c.s.nThetaReduced - 1), ∑ k ∈ Ico 0 c.s.nZeta, pw c l * F k l = 2 * ∑ k ∈ Ico 0 c.s.nZeta, fw c * F k l := by
    intro l hl
    rw [e2 l hl, Finset.mul_sum]
    exact Finset.sum_congr rfl fun k _ => by ring
  rw [Finset.sum_congr rfl e3]
  ring

/-- power of a force along a displacement, over the full grid: the symmetric part of the force acts on the symmetric part
    of the displacement, the antisymmetric part on the antisymmetric one -/
theorem pair_sum (h : Full c) (σ : ℝ) (hσ : σ * σ = 1) (f gs ga : Int → Int → ℝ)
    (hs : ∀ k l, 0 ≤ k → k < c.s.nZeta → 0 ≤ l → l < c.s.nThetaEven → gs (kRev c k) (lRev c l) = σ * gs k l)
    (ha : ∀ k l, 0 ≤ k → k < c.s.nZeta → 0 ≤ l → l < c.s.nThetaEven → ga (kRev c k) (lRev c l) = -σ * ga k l) :
    ∑ k ∈ Ico 0 c.s.nZeta, ∑ l ∈ Ico 0 c.s.nThetaEven, fw c * (f k l * (gs k l + ga k l)) =
      (∑ k ∈ Ico 0 c.s.nZeta, ∑ l ∈ Ico 0 c.s.nThetaReduced, pw c l * ((f k l + σ * f (kRev c k) (lRev c l)) / 2 * gs k l)) +
      ∑ k ∈ Ico 0 c.s.nZeta, ∑ l ∈ Ico 0 c.s.nThetaReduced, pw c l * ((f k l - σ * f (kRev c k) (lRev c l)) / 2 * ga k l) := by
  have rev : ∀ {k l}, 0 ≤ k → k < c.s.nZeta → 0 ≤ l → l < c.s.nThetaEven →
      kRev c (kRev c k) = k ∧ lRev c (lRev c l) = l := fun k0 k1 l0 l1 => ⟨kRev_kRev h ⟨k0, k1⟩, lRev_lRev h ⟨l0, l1⟩⟩
  rw [← half_sum h, ← half_sum h]
  · have e := rev_sum h fun k l => fw c * (f k l * (gs k l + ga k l))
    have e2 : ∑ k ∈ Ico 0 c.s.nZeta, ∑ l ∈ Ico 0 c.s.nThetaEven, fw c * (f (kRev c k) (lRev c l) * (gs (kRev c k) (lRev c l) + ga (kRev c k) (lRev c l))) =
        ∑ k ∈ Ico 0 c.s.nZeta, ∑ l ∈ Ico 0 c.s.nThetaEven, fw c * (f (kRev c k) (lRev c l) * (σ * gs k l - σ * ga k l)) := by
      refine Finset.sum_congr rfl fun k hk => Finset.sum_congr rfl fun l hl => ?_
      rw [Finset.mem_Ico] at hk hl
      rw [hs k l hk.1 hk.2 hl.1 hl.2, ha k l hk.1 hk.2 hl.1 hl.2]
      ring
    rw [e2] at e
    have e3 : ∀ x y : ℝ, y = x → x = (x + y) / 2 := fun x y h => by rw [h]; ring
    refine Eq.trans (e3 _ _ e) ?_
    rw [← Finset.sum_add_distrib, ← Finset.sum_add_distrib, Finset.sum_div]
    refine Finset.sum_congr rfl fun k _ => ?_
    rw [← Finset.sum_add_distrib, ← Finset.sum_add_distrib, Finset.sum_div]
    exact Finset.sum_congr rfl fun l _ => by ring
  · intro k l k0 k1 l0 l1
    obtain ⟨r1, r2⟩ := rev k0 k1 l0 l1
    rw [r1, r2, ha k l k0 k1 l0 l1]
    linear_combination (f k l * ga k l / 2) * hσ
  · intro k l k0 k1 l0 l1
    obtain ⟨r1, r2⟩ := rev k0 k1 l0 l1
    rw [r1, r2, hs k l k0 k1 l0 l1]
    linear_combination (f k l * gs k l / 2) * hσ

end Verif.Asym
