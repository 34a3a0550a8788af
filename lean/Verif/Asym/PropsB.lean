import Verif.Asym.Props

/-!
# C69: the Fourier forces of a run without stellarator symmetry
-/
namespace Verif.Asym
open Verif Verif.Fourier Partition Finset Transform

/-- the array of the geometry that a force acts on -/
def partner : FArr → GArr
  | .armn => .r1
  | .brmn => .ru
  | .crmn => .rv
  | .azmn => .z1
  | .bzmn => .zu
  | .czmn => .zv
  | .blmn => .lu
  | .clmn => .lv
  | .frcon => .r1
  | .fzcon => .z1

theorem partner_parity (a : FArr) : sgnF (stdParity a) = parity (partner a) := by
  cases a <;> simp [sgnF, stdParity, parity, partner]

section
variable {c : Ctx} {nfp mpol ntor ntheta nzeta mg ng : Int}

/-- power of a list of forces over the full grid -/
theorem pairs_sum (h : Full c) (D : FArr × Bool → Int → Int → ℝ) (gs ga : FArr × Bool → Int → Int → ℝ)
    (hs : ∀ p k l, 0 ≤ k → k < c.s.nZeta → 0 ≤ l → l < c.s.nThetaEven → gs p (kRev c k) (lRev c l) = parity (partner p.1) * gs p k l)
    (ha : ∀ p k l, 0 ≤ k → k < c.s.nZeta → 0 ≤ l → l < c.s.nThetaEven → ga p (kRev c k) (lRev c l) = -parity (partner p.1) * ga p k l)
    (L : List (FArr × Bool)) :
    ∑ k ∈ Ico 0 c.s.nZeta, ∑ l ∈ Ico 0 c.s.nThetaEven, fw c * (L.map fun p => D p k l * (gs p k l + ga p k l)).sum =
      (∑ k ∈ Ico 0 c.s.nZeta, ∑ l ∈ Ico 0 c.s.nThetaReduced, pw c l *
        (L.map fun p => (D p k l + parity (partner p.1) * D p (kRev c k) (lRev c l)) / 2 * gs p k l).sum) +
      ∑ k ∈ Ico 0 c.s.nZeta, ∑ l ∈ Ico 0 c.s.nThetaReduced, pw c l *
        (L.map fun p => (D p k l - parity (partner p.1) * D p (kRev c k) (lRev c l)) / 2 * ga p k l).sum := by
  induction L with
  | nil => simp
  | cons p L ih =>
    simp only [List.map_cons, List.sum_cons, mul_add (fw c), mul_add (pw c _), Finset.sum_add_distrib]
    rw [ih, pair_sum h (parity (partner p.1)) (parityOf_sq _) (D p) (gs p) (ga p) (hs p) (ha p)]
    ring

/-- sum over a surface in the order of the arrays -/
theorem surface_sum (h : Full c) (f : Int → ℝ) (g : Int → Int → ℝ)
    (hfg : ∀ k l, 0 ≤ k → k < c.s.nZeta → 0 ≤ l → l < c.s.nThetaEven → f (k * c.s.nThetaEff + l) = g k l) :
    ∑ kl ∈ Ico 0 c.s.nZnT, f kl = ∑ k ∈ Ico 0 c.s.nZeta, ∑ l ∈ Ico 0 c.s.nThetaEven, g k l := by
  have hpos : 0 < c.s.nThetaEff := by have := h.red; have := h.eff; omega
  have e := flat_sum (a := c.s.nZeta) hpos (fun k l => f (k * c.s.nThetaEff + l))
  rw [← h.znt] at e
  have e1 : ∑ kl ∈ Ico 0 c.s.nZnT, f kl = ∑ kl ∈ Ico 0 c.s.nZnT, f (kl / c.s.nThetaEff * c.s.nThetaEff + kl % c.s.nThetaEff) :=
    Finset.sum_congr rfl fun kl _ => by rw [mul_comm, Int.mul_ediv_add_emod]
  rw [e1, e]
  refine Finset.sum_congr rfl fun k hk => ?_
  rw [Finset.mem_Ico] at hk
  have h2 := h.full
  rw [h2]
  refine Finset.sum_congr rfl fun l hl => ?_
  rw [Finset.mem_Ico] at hl
  have := hfg k l hk.1 hk.2 hl.1 hl.2
  rw [h2] at this
  exact this

/-- sign of a force in the power: the force is `A - ∂B/∂u + ∂C/∂v` -/
def coefOf : FArr → ℝ
  | .crmn | .czmn => -1
  | _ => 1

/-- displacement of a point, for each force array -/
noncomputable def dispS (c : Ctx) (ξ : Coef → Int → Int → Int → ℝ) (j : Int) (p : FArr × Bool) (k l : Int) : ℝ :=
  match p.1 with
  | .frcon | .fzcon => coefOf p.1 * get (Transform.Spec.geoPoint c.s (fun a j m n => c.xmpq m * ξ a j m n) j k l) (partner p.1) p.2
  | _ => coefOf p.1 * get (Transform.Spec.geoPoint c.s ξ j k l) (partner p.1) p.2

noncomputable def dispA (c : Ctx) (η : CoefA → Int → Int → Int → ℝ) (j : Int) (p : FArr × Bool) (k l : Int) : ℝ :=
  match p.1 with
  | .frcon | .fzcon => coefOf p.1 * get (antiPoint c.s (fun a j m n => c.xmpq m * η a j m n) j k l) (partner p.1) p.2
  | _ => coefOf p.1 * get (antiPoint c.s η j k l) (partner p.1) p.2

theorem dispS_reflect (h : Full c) (ξ : Coef → Int → Int → Int → ℝ) (j : Int) (p : FArr × Bool) (k l : Int) (k0 : 0 ≤ k) (k1 : k < c.s.nZeta)
    (l0 : 0 ≤ l) (l1 : l < c.s.nThetaEven) : dispS c ξ j p (kRev c k) (lRev c l) = parity (partner p.1) * dispS c ξ j p k l := by
  obtain ⟨a, e⟩ := p
  unfold dispS
  cases a <;> dsimp only <;> rw [sym_reflect h _ j ⟨k0, k1⟩ ⟨l0, l1⟩] <;> ring

theorem dispA_reflect (h : Full c) (η : CoefA → Int → Int → Int → ℝ) (j : Int) (p : FArr × Bool) (k l : Int) (k0 : 0 ≤ k) (k1 : k < c.s.nZeta)
    (l0 : 0 ≤ l) (l1 : l < c.s.nThetaEven) : dispA c η j p (kRev c k) (lRev c l) = -parity (partner p.1) * dispA c η j p k l := by
  obtain ⟨a, e⟩ := p
  unfold dispA
  cases a <;> dsimp only <;> rw [anti_reflect h _ j ⟨k0, k1⟩ ⟨l0, l1⟩] <;> ring

/-- the arrays of the forces of `R` and `Z` -/
def listRZ : List (FArr × Bool) :=
  [(.armn, true), (.armn, false), (.brmn, true), (.brmn, false), (.crmn, true), (.crmn, false), (.azmn, true), (.azmn, false),
    (.bzmn, true), (.bzmn, false), (.czmn, true), (.czmn, false), (.frcon, true), (.frcon, false), (.fzcon, true), (.fzcon, false)]

def listL : List (FArr × Bool) := [(.blmn, true), (.blmn, false), (.clmn, true), (.clmn, false)]

/-- **C69**, transposition on one surface, `R` and `Z`: for every force on the full grid and every displacement the sum over
    all modes, symmetric and antisymmetric, of Fourier force times coefficient is the surface integral of force times
    displacement over the full grid. The constraint arrays act on the displacement with its modes weighted with `xmpq`. On
    the axis the displacement has the modes m = 0 only. What an earlier call has left in the `…_asym` arrays (`da`) does not
    matter. -/
theorem C69_transpose (hs : Sizes.mk true nfp mpol ntor ntheta nzeta mg ng = .ok c.s) (hn : 1 ≤ ntor) (f : Int → Kernels.Force)
    (lam : Int → Kernels.Lam) (con : FArr → Bool → Int → ℝ) (da : FArr → Bool → Int → ℝ) (ξ : Coef → Int → Int → Int → ℝ)
    (η : CoefA → Int → Int → Int → ℝ) {j : Int} (hj : c.r.nsMinF ≤ j ∧ j < jMaxRZ c) (h0 : 0 ≤ j)
    (hax : j = 0 → ∀ m n, 1 ≤ m → (∀ a, ξ a j m n = 0) ∧ ∀ a, η a j m n = 0) :
    let F := forcesToFourier c (forceArrays f lam con) da
    Transform.Spec.modePower mpol ntor (fun a m n => F.1 a (((j - c.r.nsMinF) * mpol + m) * (ntor + 1) + n)) (fun a => ξ a j) +
      Spec.modePowerA mpol ntor (fun a m n => F.2 a (((j - c.r.nsMinF) * mpol + m) * (ntor + 1) + n)) (fun a => η a j) =
      Kernels.Spec.integral c.s.nZnT (fun kl => Sizes.wInt c.s (kl % c.s.nThetaEff)) fun kl =>
        let i := (j - c.r.nsMinF) * c.s.nZnT + kl
        let q := Spec.geo c.s (fun a j m n => c.xmpq m * ξ a j m n) (fun a j m n => c.xmpq m * η a j m n) j kl
        Kernels.Spec.power true (f i) (Spec.geo c.s ξ η j kl) +
          (con .frcon true i * q.r1_e + con .frcon false i * q.r1_o + con .fzcon true i * q.z1_e + con .fzcon false i * q.z1_o) := by
  have h := full_of_mk hs
  have h3 := lthreed_of_mk hs hn
  obtain ⟨⟨a1, a2, a3, a4⟩, _⟩ := (Sizes.C07_sizes true nfp mpol ntor ntheta nzeta mg ng).2 c.s hs
  have hred := h.red
  have hev := h.even
  intro F
  set d := forceArrays f lam con with hd
  have key1 := surface_rz h.toGoodP (symforce c d da).1 (fun a => ξ a j) hj h0 (fun e a m n hm => (hax e m n hm).1 a)
  have key2 := surface_rzA h.toGoodP (symforce c d da).2 (fun a => η a j) hj h0 (fun e a m n hm => (hax e m n hm).2 a)
  set D : FArr × Bool → Int → Int → ℝ := fun p k l => d p.1 p.2 (cell c c.r.nsMinF j k l) with hD
  have hpair := pairs_sum h D (dispS c ξ j) (dispA c η j) (dispS_reflect h ξ j) (dispA_reflect h η j) listRZ
  have hjF : j < c.r.nsMaxF := by
    have := hj.2
    unfold jMaxRZ at this
    split at this <;> rw [lt_min_iff] at this <;> exact this.1
  have hsf : ∀ a, foldEnd c a = c.r.nsMaxF → ∀ e k l, 0 ≤ k → k < c.s.nZeta → 0 ≤ l → l < c.s.nThetaReduced →
      (symforce c d da).1 a e (cell c c.r.nsMinF j k l) = (D (a, e) k l + parity (partner a) * D (a, e) (kRev c k) (lRev c l)) / 2 ∧
      (symforce c d da).2 a e (cell c c.r.nsMinF j k l) = (D (a, e) k l - parity (partner a) * D (a, e) (kRev c k) (lRev c l)) / 2 := by
    intro a ha e k l k0 k1 l0 l1
    rw [← partner_parity]
    exact symforce_eq h h3 d da a e (j := j) ⟨hj.1, by rw [ha]; exact hjF⟩ ⟨k0, k1⟩ ⟨l0, l1⟩
  have sc : ∀ a e k l, ∑ m ∈ Transform.Spec.modes c.s.mpol j e, ∑ n ∈ Ico 0 (c.s.ntor + 1),
      c.xmpq m * gVal a (torTerm (fun a => ξ a j m n) (torAt c k n)) (polAt c m l) =
      ∑ m ∈ Transform.Spec.modes c.s.mpol j e, ∑ n ∈ Ico 0 (c.s.ntor + 1),
        gVal a (torTerm (fun a => c.xmpq m * ξ a j m n) (torAt c k n)) (polAt c m l) :=
    fun a e k l => Finset.sum_congr rfl fun m _ => Finset.sum_congr rfl fun n _ => (gVal_scale a _ _ _ _).symm
  have scA : ∀ a e k l, ∑ m ∈ Transform.Spec.modes c.s.mpol j e, ∑ n ∈ Ico 0 (c.s.ntor + 1),
      c.xmpq m * gValA a (torTermA (fun a => η a j m n) (torAt c k n)) (polAt c m l) =
      ∑ m ∈ Transform.Spec.modes c.s.mpol j e, ∑ n ∈ Ico 0 (c.s.ntor + 1),
        gValA a (torTermA (fun a => c.xmpq m * η a j m n) (torAt c k n)) (polAt c m l) :=
    fun a e k l => Finset.sum_congr rfl fun m _ => Finset.sum_congr rfl fun n _ => (gValA_scale a _ _ _ _).symm
  unfold Transform.Spec.modePower Spec.modePowerA Kernels.Spec.integral
  rw [← a3, ← a4]
  refine Eq.trans (congrArg₂ (· + ·) key1 key2) ?_
  rw [surface_sum h _ (fun k l => fw c * (listRZ.map fun p => D p k l * (dispS c ξ j p k l + dispA c η j p k l)).sum)]
  · rw [hpair]
    congr 1
    · refine Finset.sum_congr rfl fun k hk => Finset.sum_congr rfl fun l hl => ?_
      rw [Finset.mem_Ico] at hk hl
      congr 1
      simp only [sc]
      rw [Fintype.sum_bool]
      try dsimp only
      simp only [fun a e => sums_get h.toGoodP ξ h0 hk hl a e,
        fun a e => sums_get h.toGoodP (fun a j m n => c.xmpq m * ξ a j m n) h0 hk hl a e]
      rw [← cell_eq h]
      simp only [fun e => (hsf .armn rfl e k l hk.1 hk.2 hl.1 hl.2).1, fun e => (hsf .brmn rfl e k l hk.1 hk.2 hl.1 hl.2).1,
        fun e => (hsf .crmn rfl e k l hk.1 hk.2 hl.1 hl.2).1, fun e => (hsf .azmn rfl e k l hk.1 hk.2 hl.1 hl.2).1,
        fun e => (hsf .bzmn rfl e k l hk.1 hk.2 hl.1 hl.2).1, fun e => (hsf .czmn rfl e k l hk.1 hk.2 hl.1 hl.2).1,
        fun e => (hsf .frcon rfl e k l hk.1 hk.2 hl.1 hl.2).1, fun e => (hsf .fzcon rfl e k l hk.1 hk.2 hl.1 hl.2).1]
      simp only [listRZ, List.map_cons, List.map_nil, List.sum_cons, List.sum_nil, dispS, coefOf, partner]
      ring
    · refine Finset.sum_congr rfl fun k hk => Finset.sum_congr rfl fun l hl => ?_
      rw [Finset.mem_Ico] at hk hl
      congr 1
      simp only [scA]
      rw [Fintype.sum_bool]
      try dsimp only
      simp only [fun a e => sumsA_get h.toGoodP η h0 hk hl a e,
        fun a e => sumsA_get h.toGoodP (fun a j m n => c.xmpq m * η a j m n) h0 hk hl a e]
      rw [← cell_eq h]
      simp only [fun e => (hsf .armn rfl e k l hk.1 hk.2 hl.1 hl.2).2, fun e => (hsf .brmn rfl e k l hk.1 hk.2 hl.1 hl.2).2,
        fun e => (hsf .crmn rfl e k l hk.1 hk.2 hl.1 hl.2).2, fun e => (hsf .azmn rfl e k l hk.1 hk.2 hl.1 hl.2).2,
        fun e => (hsf .bzmn rfl e k l hk.1 hk.2 hl.1 hl.2).2, fun e => (hsf .czmn rfl e k l hk.1 hk.2 hl.1 hl.2).2,
        fun e => (hsf .frcon rfl e k l hk.1 hk.2 hl.1 hl.2).2, fun e => (hsf .fzcon rfl e k l hk.1 hk.2 hl.1 hl.2).2]
      simp only [listRZ, List.map_cons, List.map_nil, List.sum_cons, List.sum_nil, dispA, coefOf, partner]
      ring
  · intro k l k0 k1 l0 l1
    have hfl := h.full
    obtain ⟨e1, e2⟩ := divmod (N := c.s.nThetaEff) (b := k) (k := l) l0 (by omega)
    beta_reduce
    unfold Spec.geo
    rw [e1, e2, wInt_full hs, mul_comm]
    congr 1
    dsimp only
    rw [show (j - c.r.nsMinF) * c.s.nZnT + (k * c.s.nThetaEff + l) = cell c c.r.nsMinF j k l from (add_assoc _ _ _).symm]
    have ps := fun a e => point_split c.s ξ η j k l a e
    have pq := fun a e => point_split c.s (fun a j m n => c.xmpq m * ξ a j m n) (fun a j m n => c.xmpq m * η a j m n) j k l a e
    simp only [listRZ, List.map_cons, List.map_nil, List.sum_cons, List.sum_nil, dispS, dispA, coefOf, partner, hD, hd, forceArrays]
    unfold Kernels.Spec.power
    rw [if_pos rfl]
    have x1 := ps .r1 true; have x2 := ps .r1 false; have x3 := ps .ru true; have x4 := ps .ru false
    have x5 := ps .rv true; have x6 := ps .rv false; have x7 := ps .z1 true; have x8 := ps .z1 false
    have x9 := ps .zu true; have x10 := ps .zu false; have x11 := ps .zv true; have x12 := ps .zv false
    have y1 := pq .r1 true; have y2 := pq .r1 false; have y3 := pq .z1 true; have y4 := pq .z1 false
    simp only [get] at x1 x2 x3 x4 x5 x6 x7 x8 x9 x10 x11 x12 y1 y2 y3 y4 ⊢
    rw [x1, x2, x3, x4, x5, x6, x7, x8, x9, x10, x11, x12, y1, y2, y3, y4]
    ring

/-- **C69**, transposition on one surface, lambda -/
theorem C69_transpose_lambda (hs : Sizes.mk true nfp mpol ntor ntheta nzeta mg ng = .ok c.s) (hn : 1 ≤ ntor) (f : Int → Kernels.Force)
    (lam : Int → Kernels.Lam) (con : FArr → Bool → Int → ℝ) (da : FArr → Bool → Int → ℝ) (ξ : Coef → Int → Int → Int → ℝ)
    (η : CoefA → Int → Int → Int → ℝ) {j : Int} (hj : c.r.nsMinF ≤ j ∧ j < c.r.nsMaxFIncludingLcfs) (h0 : 1 ≤ j) :
    let F := forcesToFourier c (forceArrays f lam con) da
    Transform.Spec.modePowerL mpol ntor (fun a m n => F.1 a (((j - c.r.nsMinF) * mpol + m) * (ntor + 1) + n)) (fun a => ξ a j) +
      Spec.modePowerLA mpol ntor (fun a m n => F.2 a (((j - c.r.nsMinF) * mpol + m) * (ntor + 1) + n)) (fun a => η a j) =
      Kernels.Spec.integral c.s.nZnT (fun kl => Sizes.wInt c.s (kl % c.s.nThetaEff)) fun kl =>
        Kernels.Spec.powerL true (lam ((j - c.r.nsMinF) * c.s.nZnT + kl)) (Spec.geo c.s ξ η j kl) := by
  have h := full_of_mk hs
  have h3 := lthreed_of_mk hs hn
  obtain ⟨⟨a1, a2, a3, a4⟩, _⟩ := (Sizes.C07_sizes true nfp mpol ntor ntheta nzeta mg ng).2 c.s hs
  have hred := h.red
  have hev := h.even
  have h0' : 0 ≤ j := by omega
  intro F
  set d := forceArrays f lam con with hd
  have key1 := surface_l h.toGoodP (symforce c d da).1 (fun a => ξ a j) ⟨hj.1, Or.inr hj.2⟩ h0
  have key2 := surface_lA h.toGoodP (symforce c d da).2 (fun a => η a j) ⟨hj.1, Or.inr hj.2⟩ h0
  set D : FArr × Bool → Int → Int → ℝ := fun p k l => d p.1 p.2 (cell c c.r.nsMinF j k l) with hD
  have hpair := pairs_sum h D (dispS c ξ j) (dispA c η j) (dispS_reflect h ξ j) (dispA_reflect h η j) listL
  have hsf : ∀ a, foldEnd c a = c.r.nsMaxFIncludingLcfs → ∀ e k l, 0 ≤ k → k < c.s.nZeta → 0 ≤ l → l < c.s.nThetaReduced →
      (symforce c d da).1 a e (cell c c.r.nsMinF j k l) = (D (a, e) k l + parity (partner a) * D (a, e) (kRev c k) (lRev c l)) / 2 ∧
      (symforce c d da).2 a e (cell c c.r.nsMinF j k l) = (D (a, e) k l - parity (partner a) * D (a, e) (kRev c k) (lRev c l)) / 2 := by
    intro a ha e k l k0 k1 l0 l1
    rw [← partner_parity]
    exact symforce_eq h h3 d da a e (j := j) ⟨hj.1, by rw [ha]; exact hj.2⟩ ⟨k0, k1⟩ ⟨l0, l1⟩
  unfold Transform.Spec.modePowerL Spec.modePowerLA Kernels.Spec.integral
  rw [← a3, ← a4]
  refine Eq.trans (congrArg₂ (· + ·) key1 key2) ?_
  rw [surface_sum h _ (fun k l => fw c * (listL.map fun p => D p k l * (dispS c ξ j p k l + dispA c η j p k l)).sum)]
  · rw [hpair]
    congr 1
    · refine Finset.sum_congr rfl fun k hk => Finset.sum_congr rfl fun l hl => ?_
      rw [Finset.mem_Ico] at hk hl
      congr 1
      rw [Fintype.sum_bool]
      dsimp only
      simp only [fun a e => sums_get h.toGoodP ξ h0' hk hl a e]
      rw [← cell_eq h]
      simp only [fun e => (hsf .blmn rfl e k l hk.1 hk.2 hl.1 hl.2).1, fun e => (hsf .clmn rfl e k l hk.1 hk.2 hl.1 hl.2).1]
      simp only [listL, List.map_cons, List.map_nil, List.sum_cons, List.sum_nil, dispS, coefOf, partner]
      ring
    · refine Finset.sum_congr rfl fun k hk => Finset.sum_congr rfl fun l hl => ?_
      rw [Finset.mem_Ico] at hk hl
      congr 1
      rw [Fintype.sum_bool]
      dsimp only
      simp only [fun a e => sumsA_get h.toGoodP η h0' hk hl a e]
      rw [← cell_eq h]
      simp only [fun e => (hsf .blmn rfl e k l hk.1 hk.2 hl.1 hl.2).2, fun e => (hsf .clmn rfl e k l hk.1 hk.2 hl.1 hl.2).2]
      simp only [listL, List.map_cons, List.map_nil, List.sum_cons, List.sum_nil, dispA, coefOf, partner]
      ring
  · intro k l k0 k1 l0 l1
    have hfl := h.full
    obtain ⟨e1, e2⟩ := divmod (N := c.s.nThetaEff) (b := k) (k := l) l0 (by omega)
    beta_reduce
    unfold Spec.geo
    rw [e1, e2, wInt_full hs, mul_comm]
    congr 1
    rw [show (j - c.r.nsMinF) * c.s.nZnT + (k * c.s.nThetaEff + l) = cell c c.r.nsMinF j k l from (add_assoc _ _ _).symm]
    have ps := fun a e => point_split c.s ξ η j k l a e
    simp only [listL, List.map_cons, List.map_nil, List.sum_cons, List.sum_nil, dispS, dispA, coefOf, partner, hD, hd, forceArrays]
    unfold Kernels.Spec.powerL
    rw [if_pos rfl]
    have x1 := ps .lu true; have x2 := ps .lu false; have x3 := ps .lv true; have x4 := ps .lv false
    simp only [get] at x1 x2 x3 x4 ⊢
    rw [x1, x2, x3, x4]
    ring

end

end Verif.Asym
