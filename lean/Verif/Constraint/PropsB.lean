import Verif.Constraint.Props
import Verif.Constraint.SpecB
import Verif.Asym.PropsC

/-!
# C71: the constraint force is the gradient of a penalty
-/
namespace Verif.Constraint
open Verif Verif.Fourier Partition Finset Transform Spec

/-! ## The loops -/

/-- two nested loops over surfaces and points that act on every point separately -/
theorem grid2 {S V : Type} {lo hi b N : Int} (π : Int → S → V) (body : Int → Int → S → S) (h : Int → Int → V → V)
    (hb : ∀ j k s i, π i (body j k s) = if i = (j - b) * N + k then h j k (π i s) else π i s) (s : S) {j k : Int}
    (hj : lo ≤ j ∧ j < hi) (hk : 0 ≤ k ∧ k < N) :
    π ((j - b) * N + k) (forRange lo hi (fun j s => forRange 0 N (fun k s => body j k s) s) s) = h j k (π ((j - b) * N + k) s) := by
  set i := (j - b) * N + k with hi'
  rw [forRange_map (fun j s => forRange 0 N (fun k s => body j k s) s)
    (fun j v => forRange 0 N (fun k v => if i = (j - b) * N + k then h j k v else v) v) (π i)
    (fun j s => forRange_map _ _ (π i) (fun k s => hb j k s i) s)]
  rw [forRange_only hj.1 hj.2]
  · rw [forRange_only hk.1 hk.2]
    · rw [if_pos hi']
    · intro k' v h1 h2 hne
      rw [if_neg]
      intro e
      exact hne (flat_inj hk.1 hk.2 h1 h2 (hi'.symm.trans e)).2.symm
  · intro j' v h1 h2 hne
    refine forRange_none _ (fun k' v h3 h4 => ?_) v
    rw [if_neg]
    intro e
    have := (flat_inj hk.1 hk.2 h3 h4 (hi'.symm.trans e)).1
    omega

variable {c : Ctx}

theorem fullOf_eq (e o g : Int → ℝ) {j k : Int} (hj : c.r.nsMinF ≤ j ∧ j < c.r.nsMaxFIncludingLcfs) (hk : 0 ≤ k ∧ k < c.s.nZnT) :
    fullOf c e o g ((j - c.r.nsMinF) * c.s.nZnT + k) = e ((j - c.r.nsMinF1) * c.s.nZnT + k) +
      c.sqrtSF (j - c.r.nsMinF1) * o ((j - c.r.nsMinF1) * c.s.nZnT + k) := by
  unfold fullOf
  refine grid2 (fun i g => g i) (fun j k g => upd g ((j - c.r.nsMinF) * c.s.nZnT + k) (e ((j - c.r.nsMinF1) * c.s.nZnT + k) +
      c.sqrtSF (j - c.r.nsMinF1) * o ((j - c.r.nsMinF1) * c.s.nZnT + k))) (fun j k _ => e ((j - c.r.nsMinF1) * c.s.nZnT + k) +
      c.sqrtSF (j - c.r.nsMinF1) * o ((j - c.r.nsMinF1) * c.s.nZnT + k)) (fun j k g i => ?_) g hj hk
  unfold upd
  rfl

theorem effective_eq (q : Con) (g : Int → ℝ) {j k : Int} (h1 : 1 ≤ j) (hj : c.r.nsMinF ≤ j ∧ j < c.r.nsMaxFIncludingLcfs)
    (hk : 0 ≤ k ∧ k < c.s.nZnT) :
    let i := (j - c.r.nsMinF) * c.s.nZnT + k
    effective c q g i = (q.rCon i - q.rCon0 i) * q.ruFull i + (q.zCon i - q.zCon0 i) * q.zuFull i := by
  intro i
  unfold effective
  have hf : jFirst c ≤ j := by
    unfold jFirst
    split <;> omega
  exact grid2 (fun i g => g i) (fun j k g => upd g ((j - c.r.nsMinF) * c.s.nZnT + k) ((q.rCon ((j - c.r.nsMinF) * c.s.nZnT + k) -
      q.rCon0 ((j - c.r.nsMinF) * c.s.nZnT + k)) * q.ruFull ((j - c.r.nsMinF) * c.s.nZnT + k) +
      (q.zCon ((j - c.r.nsMinF) * c.s.nZnT + k) - q.zCon0 ((j - c.r.nsMinF) * c.s.nZnT + k)) *
        q.zuFull ((j - c.r.nsMinF) * c.s.nZnT + k)))
    (fun j k _ => (q.rCon ((j - c.r.nsMinF) * c.s.nZnT + k) -
      q.rCon0 ((j - c.r.nsMinF) * c.s.nZnT + k)) * q.ruFull ((j - c.r.nsMinF) * c.s.nZnT + k) +
      (q.zCon ((j - c.r.nsMinF) * c.s.nZnT + k) - q.zCon0 ((j - c.r.nsMinF) * c.s.nZnT + k)) *
        q.zuFull ((j - c.r.nsMinF) * c.s.nZnT + k)) (fun j k g i => by unfold upd; rfl) g ⟨hf, hj.2⟩ hk

theorem addConstraint_eq (q : Con) (gCon : Int → ℝ) (d : FArr → Bool → Int → ℝ) {j k : Int} (hj : c.r.nsMinF ≤ j ∧ j < c.r.nsMaxF)
    (hk : 0 ≤ k ∧ k < c.s.nZnT) (a : FArr) (e : Bool) :
    let i := (j - c.r.nsMinF) * c.s.nZnT + k
    addConstraint c q gCon d a e i = addPoint c q gCon j k d a e i := by
  intro i
  unfold addConstraint
  have := grid2 (lo := c.r.nsMinF) (hi := c.r.nsMaxF) (b := c.r.nsMinF) (N := c.s.nZnT) (fun i (d : FArr → Bool → Int → ℝ) (p : FArr × Bool) => d p.1 p.2 i)
    (fun j k d => addPoint c q gCon j k d)
    (fun j k v p => addPoint c q gCon j k (fun a e _ => v (a, e)) p.1 p.2 ((j - c.r.nsMinF) * c.s.nZnT + k))
    (fun j k s i => by
      by_cases e : i = (j - c.r.nsMinF) * c.s.nZnT + k
      · rw [if_pos e]
        funext p
        obtain ⟨a, b⟩ := p
        subst e
        unfold addPoint
        dsimp only
      · rw [if_neg e]
        funext p
        unfold addPoint
        rw [if_neg e]) d hj hk
  have h2 := congrFun this (a, e)
  dsimp only at h2
  refine h2.trans ?_
  unfold addPoint
  dsimp only

/-! ## The power of the constraint force -/

/-- the force at a point of the arrays -/
noncomputable def forceOf (d : FArr → Bool → Int → ℝ) (i : Int) : Kernels.Force where
  armn_e := d .armn true i
  armn_o := d .armn false i
  azmn_e := d .azmn true i
  azmn_o := d .azmn false i
  brmn_e := d .brmn true i
  brmn_o := d .brmn false i
  bzmn_e := d .bzmn true i
  bzmn_o := d .bzmn false i
  crmn_e := d .crmn true i
  crmn_o := d .crmn false i
  czmn_e := d .czmn true i
  czmn_o := d .czmn false i

noncomputable def lamOf (d : FArr → Bool → Int → ℝ) (i : Int) : Kernels.Lam where
  blmn_e := d .blmn true i
  blmn_o := d .blmn false i
  clmn_e := d .clmn true i
  clmn_o := d .clmn false i

theorem arrays_form (d : FArr → Bool → Int → ℝ) : forceArrays (forceOf d) (lamOf d) d = d := by
  funext a e i
  cases a <;> cases e <;> rfl

/-- displacement of the misalignment -/
noncomputable def moved (sq ru zu r z : ℝ) (d q : Kernels.Geo) : ℝ :=
  r * (d.ru_e + sq * d.ru_o) + z * (d.zu_e + sq * d.zu_o) + ru * (q.r1_e + sq * q.r1_o) + zu * (q.z1_e + sq * q.z1_o)

theorem power_split (q : Con) (gCon : Int → ℝ) (f : Int → Kernels.Force) (lam : Int → Kernels.Lam) (con : FArr → Bool → Int → ℝ)
    {j k : Int} (hj : c.r.nsMinF ≤ j ∧ j < c.r.nsMaxF) (hk : 0 ≤ k ∧ k < c.s.nZnT) (d w : Kernels.Geo) :
    let i := (j - c.r.nsMinF) * c.s.nZnT + k
    let D := addConstraint c q gCon (forceArrays f lam con)
    Kernels.Spec.power true (forceOf D i) d +
        (D .frcon true i * w.r1_e + D .frcon false i * w.r1_o + D .fzcon true i * w.z1_e + D .fzcon false i * w.z1_o) =
      Kernels.Spec.power true (f i) d + gCon i * moved (c.sqrtSF (j - c.r.nsMinF1)) (q.ruFull i) (q.zuFull i) (q.rCon i - q.rCon0 i)
        (q.zCon i - q.zCon0 i) d w := by
  intro i D
  have h : ∀ a e, D a e i = addPoint c q gCon j k (forceArrays f lam con) a e i := fun a e => addConstraint_eq q gCon _ hj hk a e
  unfold forceOf Kernels.Spec.power moved
  simp only [h]
  have hi : i = (j - c.r.nsMinF) * c.s.nZnT + k := rfl
  unfold addPoint
  simp only [← hi, if_true, forceArrays]
  ring

/-! ## The filter is self-adjoint -/

section
variable {lasym : Bool} {nfp mpol ntor ntheta nzeta mg ng : Int}

theorem filter_power (hs : Sizes.mk lasym nfp mpol ntor ntheta nzeta mg ng = .ok c.s) (faccon tcon : Int → ℝ) (g δ : Int → ℝ)
    (st : (Four → Int → ℝ) × (Out → Int → ℝ)) {j : Int} (hj : 0 ≤ c.r.nsMinF ∧ c.r.nsMinF ≤ j ∧ j < c.r.nsMaxF) :
    mean c.s (fun kl => deAlias c faccon tcon g st ((j - c.r.nsMinF) * c.s.nZnT + kl) * δ kl) =
      if 1 ≤ j then tcon (j - c.r.nsMinF) * ∑ f ∈ fams c.s.lasym, ∑ m ∈ Ico 1 (c.s.mpol - 1), ∑ n ∈ Ico 0 (c.s.ntor + 1),
        faccon m * coef c.s (fun kl => g ((j - c.r.nsMinF) * c.s.nZnT + kl)) f m n * coef c.s δ f m n
      else 0 := by
  obtain ⟨_, _, _, _, a3, a4⟩ := grid_of_mk hs
  rw [mean_congr (g := fun kl => (if 1 ≤ j then series c.s (Ico 1 (mpol - 1)) (Ico 0 (ntor + 1)) (fun f m n =>
          tcon (j - c.r.nsMinF) * faccon m * coef c.s (fun kl => g ((j - c.r.nsMinF) * c.s.nZnT + kl)) f m n) kl else 0) * δ kl)
    (fun kl h0 h1 => by rw [C70_filter hs faccon tcon g st hj ⟨h0, h1⟩])]
  split
  · unfold series
    simp only [Finset.sum_mul, mean_sum, Finset.mul_sum, a3, a4]
    refine Finset.sum_congr rfl fun f _ => Finset.sum_congr rfl fun m _ => Finset.sum_congr rfl fun n _ => ?_
    have : ∀ kl, tcon (j - c.r.nsMinF) * faccon m * coef c.s (fun kl => g ((j - c.r.nsMinF) * c.s.nZnT + kl)) f m n * value c.s f m n kl * δ kl =
        tcon (j - c.r.nsMinF) * faccon m * coef c.s (fun kl => g ((j - c.r.nsMinF) * c.s.nZnT + kl)) f m n * (δ kl * value c.s f m n kl) :=
      fun kl => by ring
    simp only [this, mean_mul]
    unfold coef
    ring
  · simp [mean, Kernels.Spec.integral]

end

/-- the table `faccon` -/
theorem faccon_eq (mpol : Int) (σ : ℝ) {m : Int} (hm : 1 ≤ m ∧ m < mpol - 1) :
    facconOf mpol σ m = -(σ / 4) / ((m * (m + 1)) * (m * (m + 1)) : ℝ) := by
  unfold facconOf
  rw [show forRange 0 mpol (fun m f => if m > 1 then upd f (m - 1) (-0.25 * σ / (xmpqOf m * xmpqOf m)) else f) (fun _ => 0) m =
    forRange 0 mpol (fun m' v => if m' = m + 1 then -0.25 * σ / (xmpqOf m' * xmpqOf m') else v) 0 from
    forRange_map (fun m f => if m > 1 then upd f (m - 1) (-0.25 * σ / (xmpqOf m * xmpqOf m)) else f)
      (fun m' v => if m' = m + 1 then -0.25 * σ / (xmpqOf m' * xmpqOf m') else v) (fun f : Int → ℝ => f m) (fun m' f => by
      beta_reduce
      by_cases e : m' = m + 1
      · subst e
        rw [if_pos (by omega), if_pos rfl, show m + 1 - 1 = m by omega, upd_same]
      · rw [if_neg e]
        split
        · exact upd_ne _ _ (by omega)
        · rfl) _]
  rw [forRange_only (j0 := m + 1) (by omega) (by omega) _ (fun m' v _ _ h => if_neg h), if_pos rfl]
  unfold xmpqOf
  push_cast
  rw [show ((m : ℝ) + 1) * (m + 1 - 1) = m * (m + 1) by ring]
  norm_num
  ring

/-! ## The derivative of the penalty -/

theorem coef_deriv (s : Sizes.Sizes) {g : ℝ → Int → ℝ} {d : Int → ℝ} (h : ∀ kl, HasDerivAt (fun ε => g ε kl) (d kl) 0) (f : Fam) (m n : Int) :
    HasDerivAt (fun ε => coef s (g ε) f m n) (coef s d f m n) 0 := by
  unfold coef mean Kernels.Spec.integral
  exact HasDerivAt.fun_sum fun kl _ => ((h kl).mul_const _).mul_const _

theorem penalty_deriv (s : Sizes.Sizes) (t : ℝ) {g : ℝ → Int → ℝ} {d : Int → ℝ} (h : ∀ kl, HasDerivAt (fun ε => g ε kl) (d kl) 0) :
    HasDerivAt (fun ε => penalty s t (g ε)) (t / 4 * ∑ f ∈ fams s.lasym, ∑ m ∈ Ico 1 (s.mpol - 1), ∑ n ∈ Ico 0 (s.ntor + 1),
      coef s (g 0) f m n * coef s d f m n / ((m * (m + 1)) * (m * (m + 1)))) 0 := by
  unfold penalty
  have : HasDerivAt (fun ε => ∑ f ∈ fams s.lasym, ∑ m ∈ Ico 1 (s.mpol - 1), ∑ n ∈ Ico 0 (s.ntor + 1),
      (coef s (g ε) f m n / (m * (m + 1))) ^ 2) (∑ f ∈ fams s.lasym, ∑ m ∈ Ico 1 (s.mpol - 1), ∑ n ∈ Ico 0 (s.ntor + 1),
      (2 : ℕ) * (coef s (g 0) f m n / (m * (m + 1))) ^ (2 - 1) * (coef s d f m n / (m * (m + 1)))) 0 :=
    HasDerivAt.fun_sum fun f _ => HasDerivAt.fun_sum fun m _ => HasDerivAt.fun_sum fun n _ =>
      ((coef_deriv s h f m n).div_const _).fun_pow 2
  refine (this.const_mul (t / 8)).congr_deriv ?_
  rw [show t / 4 = t / 8 * 2 by ring, mul_assoc]
  congr 1
  simp only [Finset.mul_sum]
  refine Finset.sum_congr rfl fun f _ => Finset.sum_congr rfl fun m _ => Finset.sum_congr rfl fun n _ => ?_
  push_cast
  rw [pow_one]
  field_simp

theorem misalignment_deriv (sq r0 z0 : ℝ) (g q d w : Kernels.Geo) :
    HasDerivAt (fun ε => misalignment sq r0 z0 (Kernels.Spec.move g d ε) (Kernels.Spec.move q w ε))
      (moved sq (g.ru_e + sq * g.ru_o) (g.zu_e + sq * g.zu_o) (q.r1_e + sq * q.r1_o - r0) (q.z1_e + sq * q.z1_o - z0) d w) 0 := by
  unfold misalignment Kernels.Spec.move
  dsimp only
  have lin : ∀ a b e f r : ℝ, HasDerivAt (fun ε => a + ε * b + sq * (e + ε * f) - r) (b + sq * f) 0 := by
    intro a b e f r
    have h1 : HasDerivAt (fun ε : ℝ => a + ε * b) b 0 := by
      simpa using ((hasDerivAt_id (0:ℝ)).mul_const b).const_add a
    have h2 : HasDerivAt (fun ε : ℝ => e + ε * f) f 0 := by
      simpa using ((hasDerivAt_id (0:ℝ)).mul_const f).const_add e
    exact (h1.fun_add (h2.const_mul sq)).sub_const r
  have lin' : ∀ a b e f : ℝ, HasDerivAt (fun ε => a + ε * b + sq * (e + ε * f)) (b + sq * f) 0 := by
    intro a b e f
    simpa using lin a b e f 0
  refine ((((lin q.r1_e w.r1_e q.r1_o w.r1_o r0).fun_mul (lin' g.ru_e d.ru_e g.ru_o d.ru_o))).fun_add
    ((lin q.z1_e w.z1_e q.z1_o w.z1_o z0).fun_mul (lin' g.zu_e d.zu_e g.zu_o d.zu_o))).congr_deriv ?_
  unfold moved
  ring

/-- power of the constraint force on a surface and change of its penalty -/
theorem surface_power {lasym : Bool} {nfp mpol ntor ntheta nzeta mg ng : Int} (hs : Sizes.mk lasym nfp mpol ntor ntheta nzeta mg ng = .ok c.s)
    {σ : ℝ} (hσ : σ = 1 ∨ σ = -1) (tcon : Int → ℝ) (q : Con) (gEff : Int → ℝ) (st : (Four → Int → ℝ) × (Out → Int → ℝ)) {j : Int}
    (hj : 0 ≤ c.r.nsMinF ∧ c.r.nsMinF ≤ j ∧ j < c.r.nsMaxF) (hl : j < c.r.nsMaxFIncludingLcfs) (h1 : 1 ≤ j) (X Q d w : Int → Kernels.Geo)
    (r0 z0 : Int → ℝ)
    (hq : ∀ kl, 0 ≤ kl → kl < c.s.nZnT →
      let i := (j - c.r.nsMinF) * c.s.nZnT + kl
      let sq := c.sqrtSF (j - c.r.nsMinF1)
      q.rCon i - q.rCon0 i = (Q kl).r1_e + sq * (Q kl).r1_o - r0 kl ∧ q.zCon i - q.zCon0 i = (Q kl).z1_e + sq * (Q kl).z1_o - z0 kl ∧
        q.ruFull i = (X kl).ru_e + sq * (X kl).ru_o ∧ q.zuFull i = (X kl).zu_e + sq * (X kl).zu_o) :
    HasDerivAt (fun ε => penalty c.s (tcon (j - c.r.nsMinF)) fun kl => misalignment (c.sqrtSF (j - c.r.nsMinF1)) (r0 kl) (z0 kl)
        (Kernels.Spec.move (X kl) (d kl) ε) (Kernels.Spec.move (Q kl) (w kl) ε))
      (-(σ * mean c.s fun kl =>
        let i := (j - c.r.nsMinF) * c.s.nZnT + kl
        deAlias c (facconOf c.s.mpol σ) tcon (effective c q gEff) st i *
          moved (c.sqrtSF (j - c.r.nsMinF1)) (q.ruFull i) (q.zuFull i) (q.rCon i - q.rCon0 i) (q.zCon i - q.zCon0 i) (d kl) (w kl))) 0 := by
  have P := penalty_deriv c.s (tcon (j - c.r.nsMinF)) (g := fun ε kl => misalignment (c.sqrtSF (j - c.r.nsMinF1)) (r0 kl) (z0 kl)
        (Kernels.Spec.move (X kl) (d kl) ε) (Kernels.Spec.move (Q kl) (w kl) ε)) (fun kl => misalignment_deriv _ _ _ _ _ _ _)
  refine P.congr_deriv ?_
  dsimp only
  rw [filter_power hs (facconOf c.s.mpol σ) tcon (effective c q gEff) (fun kl =>
      let i := (j - c.r.nsMinF) * c.s.nZnT + kl
      moved (c.sqrtSF (j - c.r.nsMinF1)) (q.ruFull i) (q.zuFull i) (q.rCon i - q.rCon0 i) (q.zCon i - q.zCon0 i) (d kl) (w kl)) st hj,
    if_pos h1]
  have e1 : ∀ f m n, coef c.s (fun kl => effective c q gEff ((j - c.r.nsMinF) * c.s.nZnT + kl)) f m n =
      coef c.s (fun kl => misalignment (c.sqrtSF (j - c.r.nsMinF1)) (r0 kl) (z0 kl)
        (Kernels.Spec.move (X kl) (d kl) 0) (Kernels.Spec.move (Q kl) (w kl) 0)) f m n := by
    intro f m n
    refine mean_congr fun kl k0 k1 => ?_
    obtain ⟨a1, a2, a3, a4⟩ := hq kl k0 k1
    congr 1
    beta_reduce
    rw [effective_eq q gEff h1 ⟨hj.2.1, hl⟩ ⟨k0, k1⟩, a1, a2, a3, a4]
    unfold misalignment Kernels.Spec.move
    simp only [zero_mul, add_zero]
  have e2 : ∀ f m n, coef c.s (fun kl =>
      let i := (j - c.r.nsMinF) * c.s.nZnT + kl
      moved (c.sqrtSF (j - c.r.nsMinF1)) (q.ruFull i) (q.zuFull i) (q.rCon i - q.rCon0 i) (q.zCon i - q.zCon0 i) (d kl) (w kl)) f m n =
      coef c.s (fun kl => moved (c.sqrtSF (j - c.r.nsMinF1)) ((X kl).ru_e + c.sqrtSF (j - c.r.nsMinF1) * (X kl).ru_o)
        ((X kl).zu_e + c.sqrtSF (j - c.r.nsMinF1) * (X kl).zu_o) ((Q kl).r1_e + c.sqrtSF (j - c.r.nsMinF1) * (Q kl).r1_o - r0 kl)
        ((Q kl).z1_e + c.sqrtSF (j - c.r.nsMinF1) * (Q kl).z1_o - z0 kl) (d kl) (w kl)) f m n := by
    intro f m n
    refine mean_congr fun kl k0 k1 => ?_
    obtain ⟨a1, a2, a3, a4⟩ := hq kl k0 k1
    dsimp only
    rw [a1, a2, a3, a4]
  simp only [e1, e2]
  have hσ2 : σ * σ = 1 := by rcases hσ with rfl | rfl <;> norm_num
  simp only [Finset.mul_sum, ← Finset.sum_neg_distrib]
  refine Finset.sum_congr rfl fun f _ => Finset.sum_congr rfl fun m hm => Finset.sum_congr rfl fun n _ => ?_
  rw [Finset.mem_Ico] at hm
  rw [faccon_eq c.s.mpol σ hm]
  rw [div_eq_mul_inv (-(σ / 4)), div_eq_mul_inv (_ * _)]
  generalize ((m * (m + 1)) * (m * (m + 1)) : ℝ)⁻¹ = y
  generalize coef c.s (fun kl => misalignment _ _ _ _ _) f m n = a
  generalize coef c.s (fun kl => moved _ _ _ _ _ _ _) f m n = b
  linear_combination -(tcon (j - c.r.nsMinF) / 4 * y * a * b) * hσ2

/-- the power of the constraint force is zero on the axis -/
theorem axis_power {lasym : Bool} {nfp mpol ntor ntheta nzeta mg ng : Int} (hs : Sizes.mk lasym nfp mpol ntor ntheta nzeta mg ng = .ok c.s)
    (faccon tcon g δ : Int → ℝ) (st : (Four → Int → ℝ) × (Out → Int → ℝ))
    (hj : 0 ≤ c.r.nsMinF ∧ c.r.nsMinF ≤ 0 ∧ 0 < c.r.nsMaxF) :
    mean c.s (fun kl => deAlias c faccon tcon g st ((0 - c.r.nsMinF) * c.s.nZnT + kl) * δ kl) = 0 := by
  rw [filter_power hs faccon tcon g δ st hj, if_neg (by omega)]

end Verif.Constraint
