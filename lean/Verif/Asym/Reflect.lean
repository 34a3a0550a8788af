import Verif.Asym.Symrzl
import Verif.Transform.PropsC

/-!
# The reflection of both angles
-/
namespace Verif.Asym
open Verif Verif.Fourier Partition Finset Transform

/-- an array of the geometry at a point -/
def get (g : Kernels.Geo) : GArr → Bool → ℝ
  | .r1, true => g.r1_e
  | .r1, false => g.r1_o
  | .ru, true => g.ru_e
  | .ru, false => g.ru_o
  | .rv, true => g.rv_e
  | .rv, false => g.rv_o
  | .z1, true => g.z1_e
  | .z1, false => g.z1_o
  | .zu, true => g.zu_e
  | .zu, false => g.zu_o
  | .zv, true => g.zv_e
  | .zv, false => g.zv_o
  | .lu, true => g.lu_e
  | .lu, false => g.lu_o
  | .lv, true => g.lv_e
  | .lv, false => g.lv_o

theorem even_reflect {nfp : Int} (h : 1 ≤ nfp) (ntor : Int) (M : Finset Int) (a b : Int → Int → ℝ) (i i' : Int) (θ φ : ℝ) :
    Transform.Spec.evenSeries nfp ntor M a b (i * (2 * Real.pi) - θ) (i' * (2 * Real.pi) / nfp - φ) =
      Transform.Spec.evenSeries nfp ntor M a b θ φ := by
  have hn : (nfp : ℝ) ≠ 0 := by have : (1:ℝ) ≤ nfp := by exact_mod_cast h
                                linarith
  unfold Transform.Spec.evenSeries
  refine Finset.sum_congr rfl fun m _ => Finset.sum_congr rfl fun n _ => ?_
  have e1 : (m : ℝ) * (i * (2 * Real.pi) - θ) = ((m * i : Int) : ℝ) * (2 * Real.pi) - m * θ := by push_cast; ring
  have e2 : (n : ℝ) * nfp * (i' * (2 * Real.pi) / nfp - φ) = ((n * i' : Int) : ℝ) * (2 * Real.pi) - n * nfp * φ := by
    push_cast; field_simp
  rw [e1, e2, Real.cos_int_mul_two_pi_sub, Real.sin_int_mul_two_pi_sub, Real.cos_int_mul_two_pi_sub, Real.sin_int_mul_two_pi_sub]
  ring

theorem odd_reflect {nfp : Int} (h : 1 ≤ nfp) (ntor : Int) (M : Finset Int) (a b : Int → Int → ℝ) (i i' : Int) (θ φ : ℝ) :
    Transform.Spec.oddSeries nfp ntor M a b (i * (2 * Real.pi) - θ) (i' * (2 * Real.pi) / nfp - φ) =
      -Transform.Spec.oddSeries nfp ntor M a b θ φ := by
  have hn : (nfp : ℝ) ≠ 0 := by have : (1:ℝ) ≤ nfp := by exact_mod_cast h
                                linarith
  unfold Transform.Spec.oddSeries
  rw [← Finset.sum_neg_distrib]
  refine Finset.sum_congr rfl fun m _ => ?_
  rw [← Finset.sum_neg_distrib]
  refine Finset.sum_congr rfl fun n _ => ?_
  have e1 : (m : ℝ) * (i * (2 * Real.pi) - θ) = ((m * i : Int) : ℝ) * (2 * Real.pi) - m * θ := by push_cast; ring
  have e2 : (n : ℝ) * nfp * (i' * (2 * Real.pi) / nfp - φ) = ((n * i' : Int) : ℝ) * (2 * Real.pi) - n * nfp * φ := by
    push_cast; field_simp
  rw [e1, e2, Real.cos_int_mul_two_pi_sub, Real.sin_int_mul_two_pi_sub, Real.cos_int_mul_two_pi_sub, Real.sin_int_mul_two_pi_sub]
  ring

/-- derivatives of a function that is even or odd under the reflection -/
theorem deriv_reflect {F : ℝ → ℝ → ℝ} {a b σ : ℝ} (h : ∀ θ φ, F (a - θ) (b - φ) = σ * F θ φ) (θ φ : ℝ) :
    deriv (fun t => F t (b - φ)) (a - θ) = -σ * deriv (fun t => F t φ) θ ∧
      deriv (fun t => F (a - θ) t) (b - φ) = -σ * deriv (fun t => F θ t) φ := by
  constructor
  · have e : (fun t => F t (b - φ)) = fun t => σ * F (a - t) φ := by
      funext t
      rw [← h (a - t) φ, sub_sub_cancel]
    rw [e, deriv_const_mul_field]
    have := deriv_comp_const_sub (f := fun t => F t φ) a (a - θ)
    rw [this, sub_sub_cancel]; ring
  · have e : (fun t => F (a - θ) t) = fun t => σ * F θ (b - t) := by
      funext t
      rw [← h θ (b - t), sub_sub_cancel]
    rw [e, deriv_const_mul_field]
    have := deriv_comp_const_sub (f := fun t => F θ t) b (b - φ)
    rw [this, sub_sub_cancel]; ring

variable {c : Ctx}

/-- poloidal index of the reflected point -/
def lRev (c : Ctx) (l : Int) : Int := (c.s.nThetaEven - l).tmod c.s.nThetaEven

theorem lRev_range (h : Full c) {l : Int} (hl : 0 ≤ l ∧ l < c.s.nThetaEven) : 0 ≤ lRev c l ∧ lRev c l < c.s.nThetaEven := by
  unfold lRev
  rw [Int.tmod_eq_emod_of_nonneg (by omega)]
  exact ⟨Int.emod_nonneg _ (by omega), Int.emod_lt_of_pos _ (by omega)⟩

theorem lRev_pos (h : Full c) {l : Int} (h0 : 0 < l) (h1 : l < c.s.nThetaEven) : lRev c l = c.s.nThetaEven - l := by
  unfold lRev
  rw [Int.tmod_eq_emod_of_nonneg (by omega)]
  exact Int.emod_eq_of_lt (by omega) (by omega)

theorem lRev_zero (h : Full c) : lRev c 0 = 0 := by
  unfold lRev
  have := h.red
  have := h.even
  rw [Int.tmod_eq_emod_of_nonneg (by omega)]
  simp

theorem lRev_lRev (h : Full c) {l : Int} (hl : 0 ≤ l ∧ l < c.s.nThetaEven) : lRev c (lRev c l) = l := by
  by_cases e : l = 0
  · subst e; rw [lRev_zero h, lRev_zero h]
  · rw [lRev_pos h (l := l) (by omega) hl.2, lRev_pos h (by omega) (by omega)]; ring

theorem theta_rev (h : Full c) {l : Int} (hl : 0 ≤ l ∧ l < c.s.nThetaEven) :
    ∃ i : Int, Transform.Spec.gridTheta c.s (lRev c l) = i * (2 * Real.pi) - Transform.Spec.gridTheta c.s l := by
  have h3 : ((c.s.nThetaReduced : ℝ) - 1) ≠ 0 := by
    have : (2:ℝ) ≤ c.s.nThetaReduced := by exact_mod_cast h.red
    intro hh; linarith
  by_cases e : l = 0
  · refine ⟨0, ?_⟩
    subst e
    rw [lRev_zero h]
    unfold Transform.Spec.gridTheta
    simp
  · refine ⟨1, ?_⟩
    rw [lRev_pos h (by omega) hl.2, h.even]
    unfold Transform.Spec.gridTheta
    push_cast
    field_simp

theorem phi_rev (h : Full c) {k : Int} (hk : 0 ≤ k ∧ k < c.s.nZeta) :
    ∃ i : Int, Transform.Spec.gridPhi c.s (kRev c k) = i * (2 * Real.pi) / c.s.nfp - Transform.Spec.gridPhi c.s k := by
  have hz := h.zeta
  have h3 : (c.s.nZeta : ℝ) ≠ 0 := by
    have : (1:ℝ) ≤ c.s.nZeta := by exact_mod_cast hz
    intro hh; linarith
  have h4 : (c.s.nfp : ℝ) ≠ 0 := by
    have : (1:ℝ) ≤ c.s.nfp := by exact_mod_cast h.nfp
    intro hh; linarith
  have e1 : kRev c k = (c.s.nZeta - k) % c.s.nZeta := Int.tmod_eq_emod_of_nonneg (by omega)
  by_cases e : k = 0
  · refine ⟨0, ?_⟩
    subst e
    rw [e1]
    unfold Transform.Spec.gridPhi
    simp
  · refine ⟨1, ?_⟩
    rw [e1, Int.emod_eq_of_lt (by omega) (by omega)]
    unfold Transform.Spec.gridPhi
    push_cast
    field_simp

/-- the antisymmetric part of the geometry -/
noncomputable def antiPoint (s : Sizes.Sizes) (B : CoefA → Int → Int → Int → ℝ) (j k l : Int) : Kernels.Geo :=
  let R := fun e => Transform.Spec.oddSeries s.nfp s.ntor (Transform.Spec.modes s.mpol j e) (B .rsc j) (B .rcs j)
  let Z := fun e => Transform.Spec.evenSeries s.nfp s.ntor (Transform.Spec.modes s.mpol j e) (B .zcc j) (B .zss j)
  let L := fun e => Transform.Spec.evenSeries s.nfp s.ntor (Transform.Spec.modes s.mpol j e) (B .lcc j) (B .lss j)
  let θ := Transform.Spec.gridTheta s l
  let φ := Transform.Spec.gridPhi s k
  let du := fun (f : ℝ → ℝ → ℝ) => deriv (fun θ => f θ φ) θ
  let dv := fun (f : ℝ → ℝ → ℝ) => deriv (fun φ => f θ φ) φ
  { r1_e := R true θ φ, r1_o := R false θ φ, ru_e := du (R true), ru_o := du (R false), rv_e := dv (R true), rv_o := dv (R false)
    z1_e := Z true θ φ, z1_o := Z false θ φ, zu_e := du (Z true), zu_o := du (Z false), zv_e := dv (Z true), zv_o := dv (Z false)
    lu_e := du (L true), lu_o := du (L false), lv_e := -dv (L true), lv_o := -dv (L false) }

theorem deriv_plus {f g : ℝ → ℝ} (hf : Differentiable ℝ f) (hg : Differentiable ℝ g) (t : ℝ) :
    deriv (fun t => f t + g t) t = deriv f t + deriv g t :=
  ((hf t).hasDerivAt.fun_add (hg t).hasDerivAt).deriv

/-- both parts together -/
theorem point_split (s : Sizes.Sizes) (A : Coef → Int → Int → Int → ℝ) (B : CoefA → Int → Int → Int → ℝ) (j k l : Int) (a : GArr) (e : Bool) :
    get (Spec.geoPoint s A B j k l) a e = get (Transform.Spec.geoPoint s A j k l) a e + get (antiPoint s B j k l) a e := by
  unfold Spec.geoPoint Transform.Spec.geoPoint antiPoint
  dsimp only
  cases a <;> cases e <;> simp only [get]
  · rw [deriv_plus ((even_diff _ _ _ _ _).1 _) ((odd_diff _ _ _ _ _).1 _)]
  · rw [deriv_plus ((even_diff _ _ _ _ _).1 _) ((odd_diff _ _ _ _ _).1 _)]
  · rw [deriv_plus ((even_diff _ _ _ _ _).2 _) ((odd_diff _ _ _ _ _).2 _)]
  · rw [deriv_plus ((even_diff _ _ _ _ _).2 _) ((odd_diff _ _ _ _ _).2 _)]
  · rw [deriv_plus ((odd_diff _ _ _ _ _).1 _) ((even_diff _ _ _ _ _).1 _)]
  · rw [deriv_plus ((odd_diff _ _ _ _ _).1 _) ((even_diff _ _ _ _ _).1 _)]
  · rw [deriv_plus ((odd_diff _ _ _ _ _).2 _) ((even_diff _ _ _ _ _).2 _)]
  · rw [deriv_plus ((odd_diff _ _ _ _ _).2 _) ((even_diff _ _ _ _ _).2 _)]
  · rw [deriv_plus ((odd_diff _ _ _ _ _).1 _) ((even_diff _ _ _ _ _).1 _)]
  · rw [deriv_plus ((odd_diff _ _ _ _ _).1 _) ((even_diff _ _ _ _ _).1 _)]
  · rw [deriv_plus ((odd_diff _ _ _ _ _).2 _) ((even_diff _ _ _ _ _).2 _)]; ring
  · rw [deriv_plus ((odd_diff _ _ _ _ _).2 _) ((even_diff _ _ _ _ _).2 _)]; ring

/-- the symmetric part under the reflection -/
theorem sym_reflect (h : Full c) (A : Coef → Int → Int → Int → ℝ) (j : Int) {k l : Int} (hk : 0 ≤ k ∧ k < c.s.nZeta)
    (hl : 0 ≤ l ∧ l < c.s.nThetaEven) (a : GArr) (e : Bool) :
    get (Transform.Spec.geoPoint c.s A j (kRev c k) (lRev c l)) a e = parity a * get (Transform.Spec.geoPoint c.s A j k l) a e := by
  obtain ⟨i, hi⟩ := theta_rev h hl
  obtain ⟨i', hi'⟩ := phi_rev h hk
  have E : ∀ M a b θ φ, Transform.Spec.evenSeries c.s.nfp c.s.ntor M a b (i * (2 * Real.pi) - θ) (i' * (2 * Real.pi) / c.s.nfp - φ) =
      1 * Transform.Spec.evenSeries c.s.nfp c.s.ntor M a b θ φ := fun M a b θ φ => by rw [one_mul]; exact even_reflect h.nfp _ M a b i i' θ φ
  have O : ∀ M a b θ φ, Transform.Spec.oddSeries c.s.nfp c.s.ntor M a b (i * (2 * Real.pi) - θ) (i' * (2 * Real.pi) / c.s.nfp - φ) =
      (-1) * Transform.Spec.oddSeries c.s.nfp c.s.ntor M a b θ φ := fun M a b θ φ => by rw [neg_one_mul]; exact odd_reflect h.nfp _ M a b i i' θ φ
  unfold Transform.Spec.geoPoint
  rw [hi, hi']
  dsimp only
  have E1 := fun M a b θ φ => (deriv_reflect (E M a b) θ φ).1
  have E2 := fun M a b θ φ => (deriv_reflect (E M a b) θ φ).2
  have O1 := fun M a b θ φ => (deriv_reflect (O M a b) θ φ).1
  have O2 := fun M a b θ φ => (deriv_reflect (O M a b) θ φ).2
  cases a <;> cases e <;> simp only [get, parity, E, O, E1, E2, O1, O2] <;> ring

/-- the antisymmetric part has the opposite sign -/
theorem anti_reflect (h : Full c) (B : CoefA → Int → Int → Int → ℝ) (j : Int) {k l : Int} (hk : 0 ≤ k ∧ k < c.s.nZeta)
    (hl : 0 ≤ l ∧ l < c.s.nThetaEven) (a : GArr) (e : Bool) :
    get (antiPoint c.s B j (kRev c k) (lRev c l)) a e = -parity a * get (antiPoint c.s B j k l) a e := by
  obtain ⟨i, hi⟩ := theta_rev h hl
  obtain ⟨i', hi'⟩ := phi_rev h hk
  have E : ∀ M a b θ φ, Transform.Spec.evenSeries c.s.nfp c.s.ntor M a b (i * (2 * Real.pi) - θ) (i' * (2 * Real.pi) / c.s.nfp - φ) =
      1 * Transform.Spec.evenSeries c.s.nfp c.s.ntor M a b θ φ := fun M a b θ φ => by rw [one_mul]; exact even_reflect h.nfp _ M a b i i' θ φ
  have O : ∀ M a b θ φ, Transform.Spec.oddSeries c.s.nfp c.s.ntor M a b (i * (2 * Real.pi) - θ) (i' * (2 * Real.pi) / c.s.nfp - φ) =
      (-1) * Transform.Spec.oddSeries c.s.nfp c.s.ntor M a b θ φ := fun M a b θ φ => by rw [neg_one_mul]; exact odd_reflect h.nfp _ M a b i i' θ φ
  unfold antiPoint
  rw [hi, hi']
  dsimp only
  have E1 := fun M a b θ φ => (deriv_reflect (E M a b) θ φ).1
  have E2 := fun M a b θ φ => (deriv_reflect (E M a b) θ φ).2
  have O1 := fun M a b θ φ => (deriv_reflect (O M a b) θ φ).1
  have O2 := fun M a b θ φ => (deriv_reflect (O M a b) θ φ).2
  cases a <;> cases e <;> simp only [get, parity, E, O, E1, E2, O1, O2] <;> ring

/-- on the reduced interval the sums of the symmetric transform are its part of the geometry -/
theorem sums_get (h : GoodP c) (A : Coef → Int → Int → Int → ℝ) {j k l : Int} (h0 : 0 ≤ j) (hk : 0 ≤ k ∧ k < c.s.nZeta)
    (hl : 0 ≤ l ∧ l < c.s.nThetaReduced) (a : GArr) (e : Bool) :
    ∑ m ∈ Transform.Spec.modes c.s.mpol j e, ∑ n ∈ Ico 0 (c.s.ntor + 1),
      gVal a (torTerm (fun a => A a j m n) (torAt c k n)) (polAt c m l) = get (Transform.Spec.geoPoint c.s A j k l) a e := by
  rw [sums_geo h A h0 hk hl]
  cases a <;> cases e <;> rfl

/-- and the sums of the antisymmetric one the other part -/
theorem sumsA_get (h : GoodP c) (B : CoefA → Int → Int → Int → ℝ) {j k l : Int} (h0 : 0 ≤ j) (hk : 0 ≤ k ∧ k < c.s.nZeta)
    (hl : 0 ≤ l ∧ l < c.s.nThetaReduced) (a : GArr) (e : Bool) :
    ∑ m ∈ Transform.Spec.modes c.s.mpol j e, ∑ n ∈ Ico 0 (c.s.ntor + 1),
      gValA a (torTermA (fun a => B a j m n) (torAt c k n)) (polAt c m l) = get (antiPoint c.s B j k l) a e := by
  have hv : ∀ m ∈ Transform.Spec.modes c.s.mpol j e, ∀ n ∈ Ico 0 (c.s.ntor + 1), _ := fun m hm n hn =>
    mode_valuesA h (fun a => B a j m n) (Finset.mem_Ico.1 ((mode_mem e h0).1 hm).1).1 (Finset.mem_Ico.1 ((mode_mem e h0).1 hm).1).2
      (Finset.mem_Ico.1 hn).1 (by have := (Finset.mem_Ico.1 hn).2; omega) hk hl
  have key : ∀ e', e' = e → (∑ m ∈ Transform.Spec.modes c.s.mpol j e, ∑ n ∈ Ico 0 (c.s.ntor + 1),
      gValA a (torTermA (fun a => B a j m n) (torAt c k n)) (polAt c m l)) = get (antiPoint c.s B j k l) a e' := by
    intro e' he
    have d := fun (f : Int → Int → ℝ → ℝ) (f' : Int → Int → ℝ) (x : ℝ) (hf : ∀ m ∈ Transform.Spec.modes c.s.mpol j e, ∀ n ∈ Ico 0 (c.s.ntor + 1),
        HasDerivAt (f m n) (f' m n) x) =>
      (HasDerivAt.fun_sum fun m hm => HasDerivAt.fun_sum fun n hn => hf m hm n hn :
        HasDerivAt (fun x => ∑ m ∈ Transform.Spec.modes c.s.mpol j e, ∑ n ∈ Ico 0 (c.s.ntor + 1), f m n x)
          (∑ m ∈ Transform.Spec.modes c.s.mpol j e, ∑ n ∈ Ico 0 (c.s.ntor + 1), f' m n) x).deriv.symm
    have v1 : a = .r1 → (∑ m ∈ Transform.Spec.modes c.s.mpol j e, ∑ n ∈ Ico 0 (c.s.ntor + 1),
      gValA a (torTermA (fun a => B a j m n) (torAt c k n)) (polAt c m l)) =
        Transform.Spec.oddSeries c.s.nfp c.s.ntor (Transform.Spec.modes c.s.mpol j e) (B .rsc j) (B .rcs j) (Transform.Spec.gridTheta c.s l)
          (Transform.Spec.gridPhi c.s k) := by
      rintro rfl
      exact Finset.sum_congr rfl fun m hm => Finset.sum_congr rfl fun n hn => (hv m hm n hn).1
    have v2 : a = .z1 → (∑ m ∈ Transform.Spec.modes c.s.mpol j e, ∑ n ∈ Ico 0 (c.s.ntor + 1),
      gValA a (torTermA (fun a => B a j m n) (torAt c k n)) (polAt c m l)) =
        Transform.Spec.evenSeries c.s.nfp c.s.ntor (Transform.Spec.modes c.s.mpol j e) (B .zcc j) (B .zss j) (Transform.Spec.gridTheta c.s l)
          (Transform.Spec.gridPhi c.s k) := by
      rintro rfl
      exact Finset.sum_congr rfl fun m hm => Finset.sum_congr rfl fun n hn => (hv m hm n hn).2.2.2.1
    subst he
    cases a with
    | r1 => rw [v1 rfl]; cases e' <;> rfl
    | z1 => rw [v2 rfl]; cases e' <;> rfl
    | ru => refine (d _ _ _ fun m hm n hn => (hv m hm n hn).2.1).trans ?_; cases e' <;> rfl
    | rv => refine (d _ _ _ fun m hm n hn => (hv m hm n hn).2.2.1).trans ?_; cases e' <;> rfl
    | zu => refine (d _ _ _ fun m hm n hn => (hv m hm n hn).2.2.2.2.1).trans ?_; cases e' <;> rfl
    | zv => refine (d _ _ _ fun m hm n hn => (hv m hm n hn).2.2.2.2.2.1).trans ?_; cases e' <;> rfl
    | lu => refine (d _ _ _ fun m hm n hn => (hv m hm n hn).2.2.2.2.2.2.1).trans ?_; cases e' <;> rfl
    | lv =>
      have e1 := d _ _ _ fun m hm n hn => (hv m hm n hn).2.2.2.2.2.2.2
      simp only [Finset.sum_neg_distrib] at e1
      refine (neg_eq_iff_eq_neg.1 e1).trans ?_
      cases e' <;> rfl
  exact key e rfl

end Verif.Asym
