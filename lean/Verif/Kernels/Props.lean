import Verif.Kernels.Pipeline
import Verif.Kernels.Spec

/-!
# C46: forces and preconditioners do not depend on the thread partition
-/
namespace Verif.Kernels
open Verif Verif.Partition Finset

theorem sides_sum {ns j : Int} (h0 : 0 ≤ j) (h1 : j < ns) (f : Int → ℝ) :
    ∑ h ∈ Spec.sides ns j, f h = (if 0 < j then f (j - 1) else 0) + (if j < ns - 1 then f j else 0) := by
  unfold Spec.sides
  rw [Finset.sum_filter, Finset.sum_pair (by omega)]
  congr 1
  · by_cases e : 0 < j
    · rw [if_pos e, if_pos (by omega)]
    · rw [if_neg e, if_neg (by omega)]
  · by_cases e : j < ns - 1
    · rw [if_pos e, if_pos (by omega)]
    · rw [if_neg e, if_neg (by omega)]

theorem mean_eq {ns j : Int} (h0 : 0 ≤ j) (h1 : j < ns) (f : Int → ℝ) :
    Spec.mean ns f j = ((if 0 < j then f (j - 1) else 0) + (if j < ns - 1 then f j else 0)) / 2 := by
  unfold Spec.mean; rw [sides_sum h0 h1]

theorem dds_eq {ns j : Int} (h0 : 0 ≤ j) (h1 : j < ns) (d : ℝ) (f : Int → ℝ) :
    Spec.dds ns d f j = ((if j < ns - 1 then f j else 0) - (if 0 < j then f (j - 1) else 0)) / d := by
  unfold Spec.dds
  rw [sides_sum h0 h1]
  have e : ¬ j - 1 = j := by omega
  by_cases h : 0 < j <;> simp only [h, e, if_true, if_false] <;> ring

theorem force_eq {c : Ctx} {H : Int → Int → Half} {X : Int → Int → Geo} {qH qF : Int → ℝ} {j kl : Int} (h0 : 0 ≤ j)
    (h1 : j < c.ns) (old : Force) :
    Spec.sameForce c.lthreed (forceAt c H X qH qF j kl old)
      (Spec.force c.ns c.lthreed c.deltaS (fun h => H h kl) qH j (X j kl) (qF j * qF j)) := by
  unfold Spec.sameForce forceAt Spec.force inSide outSide
  simp only [mean_eq h0 h1, dds_eq h0 h1]
  unfold densityPoint Side.of Side.zero
  cases hl : c.lthreed <;> by_cases e : 0 < j <;> by_cases e' : j < c.ns - 1 <;>
    simp only [e, e', if_true, if_false, Bool.false_eq_true, false_imp_iff, true_imp_iff, and_true, zero_mul, add_zero, zero_add,
      sub_zero, zero_div, mul_zero, neg_zero] <;> refine ⟨?_, ?_, ?_, ?_, ?_, ?_, ?_, ?_⟩ <;>
    first | (refine ⟨?_, ?_, ?_, ?_, ?_⟩ <;> ring) | ring

theorem lambda_eq {c : Ctx} {H : Int → Int → Half} {X : Int → Int → Geo} {qH qF bl : Int → ℝ} {j kl : Int} (h0 : 0 ≤ j)
    (h1 : j < c.ns) (old : Lam) :
    Spec.sameLam c.lthreed (lamAt c H X qH qF bl j kl old)
      (Spec.lambda c.ns c.lthreed c.lamscale (fun h => H h kl) qH j (X j kl) (qF j) (bl j)) := by
  unfold Spec.sameLam lamAt Spec.lambda lamIn
  simp only [mean_eq h0 h1]
  unfold lamPoint
  have e0 : j = 0 ↔ ¬ 0 < j := by omega
  cases hl : c.lthreed <;> by_cases e : 0 < j <;> by_cases e' : j < c.ns - 1 <;>
    simp only [e0, e, e', not_true_eq_false, not_false_eq_true, if_true, if_false, Bool.false_eq_true, false_imp_iff, true_imp_iff, and_true, zero_mul,
      add_zero, zero_add, sub_zero, zero_div, mul_zero, neg_zero] <;> refine ⟨?_, ?_⟩ <;>
    first | (refine ⟨?_, ?_, ?_⟩ <;> ring) | ring

theorem precond_eq {c : Ctx} {H : Int → Int → Half} {qF : Int → ℝ} {j m n : Int} (h0 : 0 ≤ j) (h1 : j < c.ns) :
    lamEntryAt c H qF j m n = Spec.lambdaPrecond c.ns c.lthreed c.lamscale c.nfp c.nZnT (wt c) H (qF j) j m n := by
  unfold lamEntryAt Spec.lambdaPrecond
  by_cases e : j = 0 ∨ (m = 0 ∧ n = 0)
  · rw [if_pos e, if_pos e]
  · rw [if_neg e, if_neg e]
    have hj : 0 < j := by have := fun h : j = 0 => e (Or.inl h); omega
    have hn : ¬ j = 0 := by omega
    have hf : lamFull c H j =
        ⟨Spec.mean c.ns (fun h => Spec.integral c.nZnT (wt c) fun kl => (H h kl).guu / (H h kl).gsqrt) j,
          if c.lthreed then Spec.mean c.ns (fun h => Spec.integral c.nZnT (wt c) fun kl => (H h kl).guv / (H h kl).gsqrt) j else 0,
          Spec.mean c.ns (fun h => Spec.integral c.nZnT (wt c) fun kl => (H h kl).gvv / (H h kl).gsqrt) j⟩ := by
      unfold lamFull Lam3.avg lamSum Spec.integral
      simp only [mean_eq h0 h1]
      cases hl : c.lthreed <;> by_cases e' : j < c.ns - 1 <;> rw [if_neg hn] <;>
        simp only [hj, e', if_true, if_false, Bool.false_eq_true] <;> ext <;> dsimp only <;> ring
    rw [hf]
    unfold lambdaEntry copysign kLambdaPreconditionerDampingFactor kLambdaPreconditionerZeroGuard kLambdaHighMDampingMaxPower
      kLambdaHighMDampingReferenceM
    dsimp only
    have e1 : ∀ b d k : ℝ, ((n * c.nfp * n * c.nfp : Int) : ℝ) * b + 2 * m * n * c.nfp * d + ((m * m : Int) : ℝ) * k =
        ((n : ℝ) * c.nfp) ^ 2 * b + 2 * m * (n * c.nfp) * d + (m : ℝ) ^ 2 * k := by
      intro b d k; push_cast; ring
    have e2 : ((m * m : Int) : ℝ) / (16 * 16) = (m : ℝ) ^ 2 / 256 := by push_cast; ring
    rw [e1, e2]
    congr 1
    congr 1
    · ring
    · congr 1; norm_num

/-- what every thread of a team is given: a window on the half-grid quantities, on the geometry and on the profiles -/
structure Inputs (c : Ctx) (r : Ranges) (H : Int → Int → Half) (X : Int → Int → Geo) (qH qF : Int → ℝ) (half : Vec Half)
    (geo : Vec Geo) (sqrtSH sqrtSF : Vec ℝ) : Prop where
  half : Holds half r.nsMinH r.nsMaxH c.nZnT H
  geo : Holds geo r.nsMinF1 r.nsMaxF1 c.nZnT X
  sqrtSH : Holds1 sqrtSH r.nsMinH r.nsMaxH qH
  sqrtSF : Holds1 sqrtSF r.nsMinF1 r.nsMaxF1 qF

section
variable {nt : Int} {c : Ctx} {R : Int → Ranges} {H : Int → Int → Half} {X : Int → Int → Geo} {qH qF : Int → ℝ}
  {t : Int} {half : Vec Half} {geo : Vec Geo} {sqrtSH sqrtSF : Vec ℝ}

/-- **C46**, force density: whichever thread sweeps over its surfaces with the values carried over from the inside, the
    result on a surface it owns is the two-sided formula. Scratch and output arrays may hold anything before. -/
theorem C46_force_density (hc : GoodCtx c) (hT : Multigrid.GoodTeam nt c.ns c.lfreeb R) (ht : isThread nt t)
    (hin : Inputs c (R t) H X qH qF half geo sqrtSH sqrtSF) (inside outside : Vec Side) (out : Vec Force)
    (hi : inside.size = c.nZnT) (ho : outside.size = c.nZnT)
    (hs : out.size = ((R t).nsMaxF - (R t).nsMinF) * c.nZnT) :
    ∃ out', computeMHDForces c (R t) half geo sqrtSH sqrtSF inside outside out = .ok out' ∧
      ∀ j kl, owns (R t) j → 0 ≤ kl → kl < c.nZnT →
        Spec.sameForce c.lthreed (out'.val ((j - (R t).nsMinF) * c.nZnT + kl))
          (Spec.force c.ns c.lthreed c.deltaS (fun h => H h kl) qH j (X j kl) (qF j * qF j)) := by
  have hr := good_of_team hT ht
  obtain ⟨out', e, h⟩ := density_ok (F0 := fun j kl => out.val ((j - (R t).nsMinF) * c.nZnT + kl)) hc rfl hr hin.half hin.geo
    hin.sqrtSH hin.sqrtSF hi ho (le_refl _) ⟨hs, fun _ _ _ _ _ _ => rfl⟩
  refine ⟨out', e, fun j kl hj k1 k2 => ?_⟩
  have := hr.maxF_le; have := hr.dist; have := hr.minF; have := hr.ns3
  rw [h.2 j kl hj.1 hj.2 k1 k2]
  beta_reduce
  rw [if_pos hj.2]
  exact force_eq (by have := hj.1; omega) (by have := hj.2; omega) _

/-- **C46**, lambda force -/
theorem C46_lambda_force (hc : GoodCtx c) (hT : Multigrid.GoodTeam nt c.ns c.lfreeb R) (ht : isThread nt t)
    (hin : Inputs c (R t) H X qH qF half geo sqrtSH sqrtSF) {radialBlending : Vec ℝ} {bl : Int → ℝ}
    (hb : Holds1 radialBlending (R t).nsMinF1 (R t).nsMaxF1 bl) (scratch : Vec LamIn) (out : Vec Lam)
    (hi : scratch.size = c.nZnT) (hs : out.size = ((R t).nsMaxFIncludingLcfs - (R t).nsMinF) * c.nZnT) :
    ∃ out', hybridLambdaForce c (R t) half geo sqrtSH sqrtSF radialBlending scratch out = .ok out' ∧
      ∀ j kl, (R t).nsMinF ≤ j → j < (R t).nsMaxFIncludingLcfs → 0 ≤ kl → kl < c.nZnT →
        Spec.sameLam c.lthreed (out'.val ((j - (R t).nsMinF) * c.nZnT + kl))
          (Spec.lambda c.ns c.lthreed c.lamscale (fun h => H h kl) qH j (X j kl) (qF j) (bl j)) := by
  have hr := good_of_team hT ht
  obtain ⟨out', e, h⟩ := lambda_ok (L0 := fun j kl => out.val ((j - (R t).nsMinF) * c.nZnT + kl)) hc hr hin.half hin.geo
    hin.sqrtSH hin.sqrtSF hb hi ⟨hs, fun _ _ _ _ _ _ => rfl⟩
  refine ⟨out', e, fun j kl j1 j2 k1 k2 => ?_⟩
  have := hr.maxF_le; have := hr.dist; have := hr.minF; have := hr.ns3
  have hl : (R t).nsMaxFIncludingLcfs ≤ c.ns := by rw [hr.lcfs]; split <;> omega
  rw [h.2 j kl j1 j2 k1 k2]
  exact lambda_eq (by omega) (by omega) _

/-- **C46**, lambda preconditioner: every update, the first one on the arrays the constructor set to zero and any later
    one on the arrays the previous update left, gives the entries of the two-sided average -/
theorem C46_lambda_preconditioner (hc : GoodCtx c) (hT : Multigrid.GoodTeam nt c.ns c.lfreeb R) (ht : isThread nt t)
    (hin : Inputs c (R t) H X qH qF half geo sqrtSH sqrtSF) (hm : 0 ≤ c.mpol) (hn : 0 ≤ c.ntor) (a : Vec Lam3)
    (ha : SlotZero c (R t) a) (pre : Vec ℝ)
    (hp : pre.size = ((R t).nsMaxFIncludingLcfs - (R t).nsMinF) * c.mpol * (c.ntor + 1)) :
    ∃ a' pre', updateLambdaPreconditioner c (R t) half sqrtSF a pre = .ok (a', pre') ∧ SlotZero c (R t) a' ∧
      pre'.size = pre.size ∧
      ∀ j m n, (R t).nsMinF ≤ j → j < (R t).nsMaxFIncludingLcfs → 0 ≤ m → m < c.mpol → 0 ≤ n → n ≤ c.ntor →
        pre'.val (((j - (R t).nsMinF) * c.mpol + m) * (c.ntor + 1) + n) =
          Spec.lambdaPrecond c.ns c.lthreed c.lamscale c.nfp c.nZnT (wt c) H (qF j) j m n := by
  have hr := good_of_team hT ht
  obtain ⟨a', pre', e, h1, h2⟩ := lambdaPrecond_ok hc hr hin.half hin.sqrtSF hm hn ha hp
  refine ⟨a', pre', e, h1, h2.1.trans hp.symm, fun j m n j1 j2 m1 m2 n1 n2 => ?_⟩
  have := hr.maxF_le; have := hr.dist; have := hr.minF; have := hr.ns3
  have hl : (R t).nsMaxFIncludingLcfs ≤ c.ns := by rw [hr.lcfs]; split <;> omega
  rw [h2.2 j m n j1 j2 m1 m2 n1 (by omega)]
  exact precond_eq (by omega) (by omega)

end

/-! ## the whole evaluation -/

/-- the force density of the torus as a function of geometry and profiles -/
noncomputable def torusForce (c : Ctx) (P : Prof) (X : Int → Int → Geo) (j kl : Int) : Force :=
  Spec.force c.ns c.lthreed c.deltaS (fun h => halfOf c P X blank h kl) P.qH j (geoOf c P X j kl) (P.qF j * P.qF j)

noncomputable def torusLambda (c : Ctx) (P : Prof) (X : Int → Int → Geo) (j kl : Int) : Lam :=
  Spec.lambda c.ns c.lthreed c.lamscale (fun h => halfOf c P X blank h kl) P.qH j (geoOf c P X j kl) (P.qF j) (P.blend j)

theorem force_blank {c : Ctx} {P : Prof} {X : Int → Int → Geo} (H0 : Int → Int → Half) (j kl : Int) (G : Geo) (s : ℝ) :
    Spec.force c.ns c.lthreed c.deltaS (fun h => halfOf c P X H0 h kl) P.qH j G s =
      Spec.force c.ns c.lthreed c.deltaS (fun h => halfOf c P X blank h kl) P.qH j G s := by
  unfold Spec.force
  simp only [halfOf_eq H0]

theorem lambda_blank {c : Ctx} {P : Prof} {X : Int → Int → Geo} (H0 : Int → Int → Half) (j kl : Int) (G : Geo) (s b : ℝ) :
    Spec.lambda c.ns c.lthreed c.lamscale (fun h => halfOf c P X H0 h kl) P.qH j G s b =
      Spec.lambda c.ns c.lthreed c.lamscale (fun h => halfOf c P X blank h kl) P.qH j G s b := by
  unfold Spec.lambda
  simp only [halfOf_eq H0]
  cases h : c.lthreed
  · simp only [Bool.false_eq_true, if_false]
  · simp only [if_true]
    have e : ∀ h', (metricOf c P X blank h' kl).guv = (halfOf c P X blank h' kl).guv := by
      intro h'
      have := congrArg Half.guv (halfOf_eq (c := c) (P := P) (X := X) blank h' kl)
      rw [h, if_pos rfl] at this
      exact this.symm
    simp only [e]

section
variable {nt : Int} {c : Ctx} {R : Int → Ranges} {P : Prof} {X : Int → Int → Geo} {t : Int} {g : Given} {geo : Vec Geo}
  {w : Work}

/-- **C46**, whole evaluation: on the surfaces of a thread the chain of kernels gives the forces of the torus, and no
    kernel leaves its arrays -/
theorem C46_evaluation (hc : GoodCtx c) (hT : Multigrid.GoodTeam nt c.ns c.lfreeb R) (ht : isThread nt t)
    (h : Windows c (R t) P X g geo w) :
    ∃ e, evaluate c (R t) g geo w = .ok e ∧
      (∀ j kl, owns (R t) j → 0 ≤ kl → kl < c.nZnT →
        Spec.sameForce c.lthreed (e.force.val ((j - (R t).nsMinF) * c.nZnT + kl)) (torusForce c P X j kl)) ∧
      (∀ j kl, (R t).nsMinF ≤ j → j < (R t).nsMaxFIncludingLcfs → 0 ≤ kl → kl < c.nZnT →
        Spec.sameLam c.lthreed (e.lam.val ((j - (R t).nsMinF) * c.nZnT + kl)) (torusLambda c P X j kl)) := by
  have hr := good_of_team hT ht
  obtain ⟨e, he, h⟩ := evaluate_ok hc hr h
  have := hr.maxF_le; have := hr.dist; have := hr.minF; have := hr.ns3
  have hl : (R t).nsMaxFIncludingLcfs ≤ c.ns := by rw [hr.lcfs]; split <;> omega
  refine ⟨e, he, fun j kl hj k1 k2 => ?_, fun j kl j1 j2 k1 k2 => ?_⟩
  · rw [h.force.2 j kl hj.1 hj.2 k1 k2]
    unfold torusForce
    rw [← force_blank (before c (R t) w)]
    exact force_eq (by have := hj.1; omega) (by have := hj.2; omega) _
  · rw [h.lam.2 j kl j1 j2 k1 k2]
    unfold torusLambda
    rw [← lambda_blank (before c (R t) w)]
    exact lambda_eq (by omega) (by omega) _

theorem sameForce.trans {b : Bool} {x y z : Force} (h : Spec.sameForce b x z) (h' : Spec.sameForce b y z) :
    Spec.sameForce b x y := by
  obtain ⟨a1, a2, a3, a4, a5, a6, a7, a8, a9⟩ := h
  obtain ⟨b1, b2, b3, b4, b5, b6, b7, b8, b9⟩ := h'
  refine ⟨a1.trans b1.symm, a2.trans b2.symm, a3.trans b3.symm, a4.trans b4.symm, a5.trans b5.symm, a6.trans b6.symm,
    a7.trans b7.symm, a8.trans b8.symm, fun hb => ?_⟩
  obtain ⟨c1, c2, c3, c4⟩ := a9 hb
  obtain ⟨d1, d2, d3, d4⟩ := b9 hb
  exact ⟨c1.trans d1.symm, c2.trans d2.symm, c3.trans d3.symm, c4.trans d4.symm⟩

theorem sameLam.trans {b : Bool} {x y z : Lam} (h : Spec.sameLam b x z) (h' : Spec.sameLam b y z) : Spec.sameLam b x y := by
  obtain ⟨a1, a2, a9⟩ := h
  obtain ⟨b1, b2, b9⟩ := h'
  refine ⟨a1.trans b1.symm, a2.trans b2.symm, fun hb => ?_⟩
  obtain ⟨c1, c2⟩ := a9 hb
  obtain ⟨d1, d2⟩ := b9 hb
  exact ⟨c1.trans d1.symm, c2.trans d2.symm⟩

/-- **C46**: two runs of the same case with different thread counts, in whatever state their work arrays are, give every
    surface the same force density and the same lambda force -/
theorem C46_thread_count {nt' t' : Int} {R' : Int → Ranges} {g' : Given} {geo' : Vec Geo} {w' : Work} (hc : GoodCtx c)
    (hT : Multigrid.GoodTeam nt c.ns c.lfreeb R) (ht : isThread nt t) (h : Windows c (R t) P X g geo w)
    (hT' : Multigrid.GoodTeam nt' c.ns c.lfreeb R') (ht' : isThread nt' t') (h' : Windows c (R' t') P X g' geo' w') :
    ∃ e e', evaluate c (R t) g geo w = .ok e ∧ evaluate c (R' t') g' geo' w' = .ok e' ∧
      ∀ j kl, owns (R t) j → owns (R' t') j → 0 ≤ kl → kl < c.nZnT →
        Spec.sameForce c.lthreed (e.force.val ((j - (R t).nsMinF) * c.nZnT + kl))
          (e'.force.val ((j - (R' t').nsMinF) * c.nZnT + kl)) ∧
        Spec.sameLam c.lthreed (e.lam.val ((j - (R t).nsMinF) * c.nZnT + kl))
          (e'.lam.val ((j - (R' t').nsMinF) * c.nZnT + kl)) := by
  obtain ⟨e, he, f1, f2⟩ := C46_evaluation hc hT ht h
  obtain ⟨e', he', f1', f2'⟩ := C46_evaluation hc hT' ht' h'
  have l : ∀ {nt t : Int} {R : Int → Ranges}, Multigrid.GoodTeam nt c.ns c.lfreeb R → isThread nt t →
      (R t).nsMaxF ≤ (R t).nsMaxFIncludingLcfs := by
    intro nt t R hT ht
    have hr := good_of_team hT ht
    have := hr.maxF_le; have := hr.dist
    rw [hr.lcfs]; split <;> omega
  have l1 := l hT ht
  have l2 := l hT' ht'
  exact ⟨e, e', he, he', fun j kl hj hj' k1 k2 => ⟨sameForce.trans (f1 j kl hj k1 k2) (f1' j kl hj' k1 k2),
    sameLam.trans (f2 j kl hj.1 (lt_of_lt_of_le hj.2 l1) k1 k2) (f2' j kl hj'.1 (lt_of_lt_of_le hj'.2 l2) k1 k2)⟩⟩

end

/-- half-grid sums as the threads write them -/
theorem counted_sum {M : Type} [AddCommMonoid M] {nt ns : Int} {lfreeb : Bool} {R : Int → Ranges}
    (hT : Multigrid.GoodTeam nt ns lfreeb R) (f : Int → M) :
    ∑ t ∈ Ico 0 nt, (∑ j ∈ Ico (R t).nsMinH (R t).nsMaxH, if j < (R t).nsMaxH - 1 ∨ j = ns - 2 then f j else 0) =
      ∑ h ∈ Ico 0 (ns - 1), f h := by
  obtain ⟨h1, h2, h3, hT⟩ := hT
  rw [← C03_integrals nt ns lfreeb R (by omega) h1 hT f]
  refine Finset.sum_congr rfl fun t _ => ?_
  rw [localHalfSum_eq]
  refine Finset.sum_congr rfl fun j hj => ?_
  rw [Finset.mem_Ico] at hj
  by_cases e : j < (R t).nsMaxH - 1 ∨ j = ns - 2
  · rw [if_pos e, if_pos (show countsHalf ns (R t) j from ⟨hj.1, hj.2, e⟩)]
  · rw [if_neg e, if_neg (show ¬ countsHalf ns (R t) j from fun h => e h.2.2)]

/-- **C46**, energies: the contributions of a team add up to the sums over the torus. The magnetic energy is made positive
    thread by thread, so it needs the sign of the Jacobian to be the same everywhere (`kappa` is that sign). -/
theorem C46_energies {nt : Int} {c : Ctx} {R : Int → Ranges} {P : Prof} {X : Int → Int → Geo} {g : Int → Given}
    {geo : Int → Vec Geo} {w : Int → Work} (hc : GoodCtx c) (hT : Multigrid.GoodTeam nt c.ns c.lfreeb R)
    (h : ∀ t, isThread nt t → Windows c (R t) P X (g t) (geo t) (w t)) (kappa : ℝ) (hk : kappa = 1 ∨ kappa = -1)
    (hs : ∀ j, 0 ≤ j → j < c.ns - 1 → 0 ≤ kappa * ∑ kl ∈ Ico 0 c.nZnT, (fieldOf c P X blank j kl).gsqrt * magP (fieldOf c P X blank j kl) * wt c kl) :
    ∃ e : Int → Evaluated, (∀ t, isThread nt t → evaluate c (R t) (g t) (geo t) (w t) = .ok (e t)) ∧
      ∑ t ∈ Ico 0 nt, (e t).localThermalEnergy =
        c.deltaS * ∑ j ∈ Ico 0 (c.ns - 1), presOf c P X blank j * volumeOf c P X blank j ∧
      ∑ t ∈ Ico 0 nt, (e t).localMagneticEnergy = c.deltaS * ∑ j ∈ Ico 0 (c.ns - 1), ∑ kl ∈ Ico 0 c.nZnT,
        kappa * ((fieldOf c P X blank j kl).gsqrt * magP (fieldOf c P X blank j kl)) * wt c kl := by
  have hex : ∀ t, ∃ e, isThread nt t → evaluate c (R t) (g t) (geo t) (w t) = .ok e ∧
      Result c (R t) P X (before c (R t) (w t)) (w t) e := by
    intro t
    by_cases ht : isThread nt t
    · obtain ⟨e, he⟩ := evaluate_ok hc (good_of_team hT ht) (h t ht)
      exact ⟨e, fun _ => he⟩
    · exact ⟨⟨geo t, (w t).half, (w t).dVdsH, (w t).dVdsH, (w t).dVdsH, (w t).dVdsH, 0, 0, (w t).force, (w t).lam⟩,
        fun h => absurd h ht⟩
  choose e he using hex
  refine ⟨e, fun t ht => (he t ht).1, ?_, ?_⟩
  · rw [← counted_sum hT (fun j => presOf c P X blank j * volumeOf c P X blank j), Finset.mul_sum]
    refine Finset.sum_congr rfl fun t ht => ?_
    rw [Finset.mem_Ico] at ht
    rw [(he t ht).2.thermal, mul_comm]
    simp only [presOf_eq (before c (R t) (w t)), volumeOf_eq (before c (R t) (w t))]
  · have fe : ∀ t j kl, (fieldOf c P X (before c (R t) (w t)) j kl).gsqrt * magP (fieldOf c P X (before c (R t) (w t)) j kl) =
        (fieldOf c P X blank j kl).gsqrt * magP (fieldOf c P X blank j kl) := by
      intro t j kl
      unfold magP
      rw [fieldOf_eq (before c (R t) (w t))]
    rw [← counted_sum hT (fun j => ∑ kl ∈ Ico 0 c.nZnT,
      kappa * ((fieldOf c P X blank j kl).gsqrt * magP (fieldOf c P X blank j kl)) * wt c kl), Finset.mul_sum]
    refine Finset.sum_congr rfl fun t ht => ?_
    rw [Finset.mem_Ico] at ht
    rw [(he t ht).2.magnetic, mul_comm]
    congr 1
    simp only [fe]
    have hn : ∀ j, ∑ kl ∈ Ico 0 c.nZnT, kappa * ((fieldOf c P X blank j kl).gsqrt * magP (fieldOf c P X blank j kl)) * wt c kl =
        kappa * ∑ kl ∈ Ico 0 c.nZnT, (fieldOf c P X blank j kl).gsqrt * magP (fieldOf c P X blank j kl) * wt c kl := by
      intro j; rw [Finset.mul_sum]; exact Finset.sum_congr rfl fun _ _ => by ring
    simp only [hn]
    have hm : (∑ j ∈ Ico (R t).nsMinH (R t).nsMaxH, if j < (R t).nsMaxH - 1 ∨ j = c.ns - 2 then
          kappa * ∑ kl ∈ Ico 0 c.nZnT, (fieldOf c P X blank j kl).gsqrt * magP (fieldOf c P X blank j kl) * wt c kl else 0) =
        kappa * ∑ j ∈ Ico (R t).nsMinH (R t).nsMaxH, if j < (R t).nsMaxH - 1 ∨ j = c.ns - 2 then
          ∑ kl ∈ Ico 0 c.nZnT, (fieldOf c P X blank j kl).gsqrt * magP (fieldOf c P X blank j kl) * wt c kl else 0 := by
      rw [Finset.mul_sum]
      refine Finset.sum_congr rfl fun j _ => ?_
      split
      · rfl
      · rw [mul_zero]
    have hp : 0 ≤ ∑ j ∈ Ico (R t).nsMinH (R t).nsMaxH, if j < (R t).nsMaxH - 1 ∨ j = c.ns - 2 then
        kappa * ∑ kl ∈ Ico 0 c.nZnT, (fieldOf c P X blank j kl).gsqrt * magP (fieldOf c P X blank j kl) * wt c kl else 0 :=
      Finset.sum_nonneg fun j hj => by
        rw [Finset.mem_Ico] at hj
        have hr := good_of_team hT ht
        obtain ⟨w1, w2, w3⟩ := hr.window
        have := hr.minF1; have := hr.maxF1; have := hr.minH; have := hr.maxH
        split
        · exact hs j (by omega) (by omega)
        · exact le_refl _
    rw [hm] at hp ⊢
    rw [← abs_of_nonneg hp, abs_mul]
    rcases hk with rfl | rfl <;> simp

/-- **C46**, norms of the force residuals: the sums of a team add up to the sums over the torus -/
theorem C46_force_norms {nt : Int} {c : Ctx} {R : Int → Ranges} {H : Int → Int → Half} {half : Int → Vec Half}
    (hc : GoodCtx c) (hT : Multigrid.GoodTeam nt c.ns c.lfreeb R)
    (h : ∀ t, isThread nt t → Holds (half t) (R t).nsMinH (R t).nsMaxH c.nZnT H) :
    ∃ s : Int → ℝ × ℝ, (∀ t, isThread nt t → forceNormSums c (R t) (half t) = .ok (s t)) ∧
      ∑ t ∈ Ico 0 nt, s t = ∑ j ∈ Ico 0 (c.ns - 1),
        (Spec.integral c.nZnT (wt c) fun kl => (H j kl).guu * (H j kl).r12 ^ 2,
          Spec.integral c.nZnT (wt c) fun kl => (H j kl).bsubu ^ 2 + (H j kl).bsubv ^ 2) := by
  refine ⟨fun t => ∑ j ∈ Ico (R t).nsMinH (R t).nsMaxH, if j < (R t).nsMaxH - 1 ∨ j = c.ns - 2 then normTerms c H j else 0,
    fun t ht => forceNormSums_ok hc (good_of_team hT ht) (h t ht), ?_⟩
  rw [counted_sum hT]
  refine Finset.sum_congr rfl fun j _ => ?_
  unfold normTerms Spec.integral
  refine Prod.ext ?_ ?_
  · dsimp only
    refine Finset.sum_congr rfl fun kl _ => ?_
    ring
  · dsimp only
    refine Finset.sum_congr rfl fun kl _ => ?_
    ring

section
variable {nt nt' : Int} {c : Ctx} {R R' : Int → Ranges} {H : Int → Int → Half} {X : Int → Int → Geo} {qH qF : Int → ℝ}
  {t t' : Int} {half half' : Vec Half} {geo geo' : Vec Geo} {sqrtSH sqrtSF sqrtSH' sqrtSF' : Vec ℝ}

/-- **C46**, radial preconditioner: same elements for every thread count -/
theorem C46_radial_preconditioner (hc : GoodCtx c) (hT : Multigrid.GoodTeam nt c.ns c.lfreeb R) (ht : isThread nt t)
    (hT' : Multigrid.GoodTeam nt' c.ns c.lfreeb R') (ht' : isThread nt' t')
    (hin : Inputs c (R t) H X qH qF half geo sqrtSH sqrtSF) (hin' : Inputs c (R' t') H X qH qF half' geo' sqrtSH' sqrtSF')
    (x : Arrays) {sm sp : Int → ℝ} {smV spV smV' spV' : Vec ℝ} (hm : Holds1 smV (R t).nsMinH (R t).nsMaxH sm)
    (hp : Holds1 spV (R t).nsMinH (R t).nsMaxH sp) (hm' : Holds1 smV' (R' t').nsMinH (R' t').nsMaxH sm)
    (hp' : Holds1 spV' (R' t').nsMinH (R' t').nsMaxH sp) (sums sums' : Vec PreSums) (m m' : Vec OffDiag) (d d' : Vec Diag)
    (s1 : sums.size = (R t).nsMaxH - (R t).nsMinH) (s2 : m.size = (R t).nsMaxH - (R t).nsMinH)
    (s3 : d.size = (R t).nsMaxF - (R t).nsMinF) (s1' : sums'.size = (R' t').nsMaxH - (R' t').nsMinH)
    (s2' : m'.size = (R' t').nsMaxH - (R' t').nsMinH) (s3' : d'.size = (R' t').nsMaxF - (R' t').nsMinF) :
    ∃ o o', computePreconditioningMatrix c (R t) x half geo sqrtSH smV spV sums m d = .ok o ∧
      computePreconditioningMatrix c (R' t') x half' geo' sqrtSH' smV' spV' sums' m' d' = .ok o' ∧
      (∀ h, holdsHalf (R t) h → holdsHalf (R' t') h → o.2.1.val (h - (R t).nsMinH) = o'.2.1.val (h - (R' t').nsMinH)) ∧
      (∀ j, owns (R t) j → owns (R' t') j → o.2.2.val (j - (R t).nsMinF) = o'.2.2.val (j - (R' t').nsMinF)) := by
  obtain ⟨_, _, _, e, _, k1, k2⟩ := precond_ok hc (good_of_team hT ht) x hin.half hin.geo hin.sqrtSH hm hp s1 s2 s3
  obtain ⟨_, _, _, e', _, k1', k2'⟩ := precond_ok hc (good_of_team hT' ht') x hin'.half hin'.geo hin'.sqrtSH hm' hp' s1' s2' s3'
  exact ⟨_, _, e, e', fun h a b => (k1.2 h a.1 a.2).trans (k1'.2 h b.1 b.2).symm,
    fun j a b => (k2.2 j a.1 a.2).trans (k2'.2 j b.1 b.2).symm⟩

/-- **C46**, radial force balance: same profiles for every thread count -/
theorem C46_force_balance (hc : GoodCtx c) (hT : Multigrid.GoodTeam nt c.ns c.lfreeb R) (ht : isThread nt t)
    (hT' : Multigrid.GoodTeam nt' c.ns c.lfreeb R') (ht' : isThread nt' t')
    (hh : Holds half (R t).nsMinH (R t).nsMaxH c.nZnT H) (hh' : Holds half' (R' t').nsMinH (R' t').nsMaxH c.nZnT H)
    {p V chip phip : Int → ℝ} {pV vV cV fV pV' vV' cV' fV' : Vec ℝ}
    (hp : Holds1 pV (R t).nsMinH (R t).nsMaxH p) (hv : Holds1 vV (R t).nsMinH (R t).nsMaxH V)
    (hx : Holds1 cV (R t).nsMinF1 (R t).nsMaxF1 chip) (hy : Holds1 fV (R t).nsMinF1 (R t).nsMaxF1 phip)
    (hp' : Holds1 pV' (R' t').nsMinH (R' t').nsMaxH p) (hv' : Holds1 vV' (R' t').nsMinH (R' t').nsMaxH V)
    (hx' : Holds1 cV' (R' t').nsMinF1 (R' t').nsMaxF1 chip) (hy' : Holds1 fV' (R' t').nsMinF1 (R' t').nsMaxF1 phip)
    (b b' : Vec (ℝ × ℝ)) (out out' : Vec Balance) (s1 : b.size = (R t).nsMaxH - (R t).nsMinH)
    (s2 : out.size = (R t).nsMaxFi - (R t).nsMinFi) (s1' : b'.size = (R' t').nsMaxH - (R' t').nsMinH)
    (s2' : out'.size = (R' t').nsMaxFi - (R' t').nsMinFi) :
    ∃ o o', radialForceBalance c (R t) half pV vV cV fV b out = .ok o ∧
      radialForceBalance c (R' t') half' pV' vV' cV' fV' b' out' = .ok o' ∧
      (∀ h, holdsHalf (R t) h → holdsHalf (R' t') h → o.1.val (h - (R t).nsMinH) = o'.1.val (h - (R' t').nsMinH)) ∧
      (∀ j, (R t).nsMinFi ≤ j → j < (R t).nsMaxFi → (R' t').nsMinFi ≤ j → j < (R' t').nsMaxFi →
        o.2.val (j - (R t).nsMinFi) = o'.2.val (j - (R' t').nsMinFi)) := by
  obtain ⟨_, _, e, k1, k2⟩ := balance_ok hc (good_of_team hT ht) hh hp hv hx hy s1 s2
  obtain ⟨_, _, e', k1', k2'⟩ := balance_ok hc (good_of_team hT' ht') hh' hp' hv' hx' hy' s1' s2'
  exact ⟨_, _, e, e', fun h a b => (k1.2 h a.1 a.2).trans (k1'.2 h b.1 b.2).symm,
    fun j a b a' b' => (k2.2 j a b).trans (k2'.2 j a' b').symm⟩

/-- **C46**, radial force balance, values: on an interior surface the residual times `V'` is the surface average
    `χ' ∂⟨B_u⟩/∂s + φ' ∂⟨B_v⟩/∂s` (with the sign of the Jacobian) plus `p' V'`; the currents are the derivatives of the
    averages -/
theorem C46_force_balance_value (hc : GoodCtx c) (hT : Multigrid.GoodTeam nt c.ns c.lfreeb R) (ht : isThread nt t)
    (hh : Holds half (R t).nsMinH (R t).nsMaxH c.nZnT H)
    {p V chip phip : Int → ℝ} {pV vV cV fV : Vec ℝ}
    (hp : Holds1 pV (R t).nsMinH (R t).nsMaxH p) (hv : Holds1 vV (R t).nsMinH (R t).nsMaxH V)
    (hx : Holds1 cV (R t).nsMinF1 (R t).nsMaxF1 chip) (hy : Holds1 fV (R t).nsMinF1 (R t).nsMaxF1 phip)
    (b : Vec (ℝ × ℝ)) (out : Vec Balance) (s1 : b.size = (R t).nsMaxH - (R t).nsMinH)
    (s2 : out.size = (R t).nsMaxFi - (R t).nsMinFi) :
    ∃ o, radialForceBalance c (R t) half pV vV cV fV b out = .ok o ∧
      ∀ j, (R t).nsMinFi ≤ j → j < (R t).nsMaxFi →
        let bu := fun h => Spec.integral c.nZnT (wt c) fun kl => (H h kl).bsubu
        let bv := fun h => Spec.integral c.nZnT (wt c) fun kl => (H h kl).bsubv
        let B := o.2.val (j - (R t).nsMinFi)
        let V' := (V (j - 1) + V j) / 2
        B.jcurv = c.signOfJacobian * ((bu j - bu (j - 1)) / c.deltaS) ∧
        B.jcuru = -c.signOfJacobian * ((bv j - bv (j - 1)) / c.deltaS) ∧
        B.presgrad = (p j - p (j - 1)) / c.deltaS ∧ B.dVds = V' ∧
        (V' ≠ 0 → B.equi * V' = c.signOfJacobian * (chip j * ((bu j - bu (j - 1)) / c.deltaS) +
          phip j * ((bv j - bv (j - 1)) / c.deltaS)) + (p j - p (j - 1)) / c.deltaS * V') := by
  obtain ⟨b', o', e, _, k2⟩ := balance_ok hc (good_of_team hT ht) hh hp hv hx hy s1 s2
  refine ⟨_, e, fun j h1 h2 => ?_⟩
  intro bu bv B V'
  have hB : B = balanceAt c H p V chip phip j := k2.2 j h1 h2
  have hu : ∀ h, (coAt c H h).1 = bu h := fun _ => rfl
  have hv' : ∀ h, (coAt c H h).2 = bv h := fun _ => rfl
  rw [hB]
  unfold balanceAt balancePoint
  dsimp only
  rw [hu, hu, hv', hv']
  refine ⟨by ring, by ring, rfl, ?_, ?_⟩
  · simp only [V']; norm_num; ring
  · intro hV
    have e : (0.5 : ℝ) * (V j + V (j - 1)) = V' := by simp only [V']; norm_num; ring
    rw [e]
    generalize bu j = x1
    generalize bu (j - 1) = x2
    generalize bv j = x3
    generalize bv (j - 1) = x4
    rw [add_mul, div_mul_cancel₀ _ hV]
    ring

/-- **C46**, constraint multiplier: same values for every thread count, provided the norms it divides by are not zero
    (otherwise the call returns an error status) -/
theorem C46_constraint_multiplier (hc : GoodCtx c) (hT : Multigrid.GoodTeam nt c.ns c.lfreeb R) (ht : isThread nt t)
    (hT' : Multigrid.GoodTeam nt' c.ns c.lfreeb R') (ht' : isThread nt' t') (tcon0 : ℝ) {F : Int → Int → ℝ × ℝ}
    {A Z : Int → Diag} {full full' : Vec (ℝ × ℝ)} {ar az ar' az' : Vec Diag} {tc tc' : Vec ℝ}
    (hf : Holds full (R t).nsMinF (R t).nsMaxFIncludingLcfs c.nZnT F) (ha : Holds1 ar (R t).nsMinF (R t).nsMaxF A)
    (hz : Holds1 az (R t).nsMinF (R t).nsMaxF Z) (s1 : tc.size = (R t).nsMaxFIncludingLcfs - (R t).nsMinF)
    (hf' : Holds full' (R' t').nsMinF (R' t').nsMaxFIncludingLcfs c.nZnT F) (ha' : Holds1 ar' (R' t').nsMinF (R' t').nsMaxF A)
    (hz' : Holds1 az' (R' t').nsMinF (R' t').nsMaxF Z) (s1' : tc'.size = (R' t').nsMaxFIncludingLcfs - (R' t').nsMinF)
    (hn : ∀ j, 0 < j → j < c.ns → Spec.integral c.nZnT (wt c) (fun kl => (F j kl).1 ^ 2) ≠ 0 ∧
      Spec.integral c.nZnT (wt c) (fun kl => (F j kl).2 ^ 2) ≠ 0) :
    ∃ o o', constraintForceMultiplier c (R t) tcon0 full ar az tc = .ok o ∧
      constraintForceMultiplier c (R' t') tcon0 full' ar' az' tc' = .ok o' ∧
      ∀ j, 0 < j → (R t).nsMinF ≤ j → j < (R t).nsMaxFIncludingLcfs → (R' t').nsMinF ≤ j →
        j < (R' t').nsMaxFIncludingLcfs → o.val (j - (R t).nsMinF) = o'.val (j - (R' t').nsMinF) := by
  have key : ∀ j, 0 < j → j < c.ns → (normAt c F j).1 ≠ 0 ∧ (normAt c F j).2 ≠ 0 := by
    intro j h0 h1
    have e := hn j h0 h1
    unfold Spec.integral at e
    simpa only [normAt, pow_two] using e
  have bound : ∀ {nt t : Int} {R : Int → Ranges}, Multigrid.GoodTeam nt c.ns c.lfreeb R → isThread nt t →
      (R t).nsMaxF ≤ c.ns := by
    intro nt t R hT ht
    have hr := good_of_team hT ht
    have := hr.maxF_le; have := hr.dist; omega
  obtain ⟨_, e, k⟩ := tcon_ok hc (good_of_team hT ht) tcon0 hf ha hz (T := fun j => tc.val (j - (R t).nsMinF))
    ⟨s1, fun _ _ _ => rfl⟩ (fun j _ b h => key j h (lt_of_lt_of_le b (bound hT ht)))
  obtain ⟨_, e', k'⟩ := tcon_ok hc (good_of_team hT' ht') tcon0 hf' ha' hz' (T := fun j => tc'.val (j - (R' t').nsMinF))
    ⟨s1', fun _ _ _ => rfl⟩ (fun j _ b h => key j h (lt_of_lt_of_le b (bound hT' ht')))
  refine ⟨_, _, e, e', fun j h0 a b a' b' => ?_⟩
  rw [k.2 j a b, k'.2 j a' b']
  beta_reduce
  rw [if_neg (show ¬ j = 0 by omega), if_neg (show ¬ j = 0 by omega)]

end

/-! ## concrete cases -/

/-- the window of a thread -/
def window {α : Type} (lo hi n : Int) (G : Int → Int → α) : Vec α := ⟨(hi - lo) * n, fun i => G (lo + i / n) (i % n)⟩
def window1 {α : Type} (lo hi : Int) (G : Int → α) : Vec α := ⟨hi - lo, fun i => G (lo + i)⟩

theorem window_holds {α : Type} (lo hi n : Int) (G : Int → Int → α) : Holds (window lo hi n G) lo hi n G := by
  refine ⟨rfl, fun j kl _ _ k1 k2 => ?_⟩
  have hn : n ≠ 0 := by omega
  unfold window
  dsimp only
  rw [add_comm ((j - lo) * n), Int.add_mul_ediv_right _ _ hn, Int.add_mul_emod_self_right, Int.ediv_eq_zero_of_lt k1 k2,
    Int.emod_eq_of_lt k1 k2]
  congr 1
  omega

theorem window1_holds {α : Type} (lo hi : Int) (G : Int → α) : Holds1 (window1 lo hi G) lo hi G :=
  ⟨rfl, fun j _ _ => by unfold window1; dsimp only; congr 1; omega⟩

/-- the hypotheses of the evaluation theorems can be met for any geometry and profiles -/
theorem windows_exist (c : Ctx) (r : Ranges) (P : Prof) (X : Int → Int → Geo) : ∃ g geo w, Windows c r P X g geo w :=
  ⟨⟨window1 _ _ P.qH, window1 _ _ P.qF, window1 _ _ P.phipF, window1 _ _ P.phipH, window1 _ _ P.curr, window1 _ _ P.mass,
      window1 _ _ P.blend⟩, window _ _ _ X,
    ⟨window _ _ _ fun _ _ => ⟨1, 2, 3, 4, 5, 6, 7, 8, 9, 10, 11, 12, 13, 14, 15⟩, window1 _ _ fun _ => 1, window1 _ _ P.chip,
      window1 _ _ P.iota, window1 _ _ fun _ => 2, ⟨_, fun _ => ⟨1, 2, 3, 4⟩⟩, ⟨_, fun _ => Side.zero⟩, ⟨_, fun _ => Side.zero⟩,
      window _ _ _ fun _ _ => ⟨1, 2, 3, 4, 5, 6, 7, 8, 9, 10, 11, 12⟩, window _ _ _ fun _ _ => ⟨1, 2, 3, 4⟩⟩,
    window_holds .., window1_holds .., window1_holds .., window1_holds .., window1_holds .., window1_holds .., window1_holds ..,
    window1_holds .., window1_holds .., window1_holds .., rfl, rfl, rfl, rfl, rfl, rfl, rfl, rfl⟩

/-- five surfaces with a fixed boundary, three-dimensional, 2 × 2 points -/
noncomputable def demo : Ctx where
  ns := 5
  lfreeb := false
  lthreed := true
  nZnT := 4
  nThetaEff := 2
  mpol := 3
  ntor := 1
  nfp := 5
  deltaS := 1 / 4
  wInt := ⟨2, fun i => if i = 0 then 1 / 6 else 1 / 3⟩
  lamscale := 2
  signOfJacobian := -1
  adiabaticIndex := 5 / 3
  ncurr1 := true

theorem demo_ctx : GoodCtx demo := ⟨by simp [demo], by simp [demo], rfl⟩

theorem demo_team (nt : Int) (h1 : 1 ≤ nt) (h2 : nt ≤ 2) : ∃ R, Multigrid.GoodTeam nt demo.ns demo.lfreeb R := by
  obtain ⟨R, hR⟩ := C01_team_exists nt 5 false (by omega) h1 (by omega)
  exact ⟨R, h1, by simp [demo], by simp [demo, numSurfacesToDistribute]; omega, hR⟩

/-- one and two threads on the same case agree on a surface both own, whatever the work arrays of either hold -/
example (P : Prof) (X : Int → Int → Geo) : ∃ (R R' : Int → Ranges) (g : Given) (geo : Vec Geo) (w : Work)
    (g' : Given) (geo' : Vec Geo) (w' : Work) (e e' : Evaluated) (t : Int),
    owns (R 0) 2 ∧ owns (R' t) 2 ∧ evaluate demo (R 0) g geo w = .ok e ∧ evaluate demo (R' t) g' geo' w' = .ok e' ∧
      Spec.sameForce demo.lthreed (e.force.val ((2 - (R 0).nsMinF) * demo.nZnT + 3))
        (e'.force.val ((2 - (R' t).nsMinF) * demo.nZnT + 3)) := by
  obtain ⟨R, hR⟩ := demo_team 1 (by omega) (by omega)
  obtain ⟨R', hR'⟩ := demo_team 2 (by omega) (by omega)
  have t0 : isThread 1 0 := ⟨by omega, by omega⟩
  have t1 : isThread 2 1 := ⟨by omega, by omega⟩
  obtain ⟨g, geo, w, h⟩ := windows_exist demo (R 0) P X
  obtain ⟨g', geo', w', h'⟩ := windows_exist demo (R' 1) P X
  obtain ⟨e, e', he, he', k⟩ := C46_thread_count demo_ctx hR t0 h hR' t1 h'
  have o : owns (R 0) 2 := by
    have := hR.2.2.2 0 t0
    simp [demo, adjustRadialPartitioning] at this
    rw [← this]; simp [owns]
  have o' : owns (R' 1) 2 := by
    have := hR'.2.2.2 1 t1
    simp [demo, adjustRadialPartitioning, splitMin, splitMax, numSurfacesToDistribute] at this
    rw [← this]; simp [owns]
  exact ⟨R, R', g, geo, w, g', geo', w', e, e', 1, o, o', he, he', (k 2 3 o o' (by omega) (by simp [demo])).1⟩

/-- the arrays of the lambda preconditioner as the constructor leaves them, and a team that updates them -/
example (H : Int → Int → Half) (X : Int → Int → Geo) (qH qF : Int → ℝ) : ∃ R, Multigrid.GoodTeam 2 demo.ns demo.lfreeb R ∧
    SlotZero demo (R 1) ⟨(R 1).nsMaxF1 - (R 1).nsMinF1 + 1, fun _ => ⟨0, 0, 0⟩⟩ ∧
    ∃ half geo sH sF, Inputs demo (R 1) H X qH qF half geo sH sF := by
  obtain ⟨R, hR⟩ := demo_team 2 (by omega) (by omega)
  exact ⟨R, hR, ⟨rfl, fun _ => rfl⟩, _, _, _, _, window_holds .., window_holds .., window1_holds .., window1_holds ..⟩

end Verif.Kernels
