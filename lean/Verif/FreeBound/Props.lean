import Verif.FreeBound.Edge
import Mathlib.Analysis.SpecificLimits.Basic
import Mathlib.Tactic.FinCases

/-! # C109: coupling at the boundary -/
namespace Verif.FreeBound
open Verif Partition Transform Control Finset

theorem znt {c : Ctx} {lasym : Bool} {nfp mpol ntor ntheta nzeta mg ng : Int} (hs : Sizes.mk lasym nfp mpol ntor ntheta nzeta mg ng = .ok c.s) :
    c.s.nZnT = c.s.nZeta * c.s.nThetaEff := by
  unfold Sizes.mk at hs
  split_ifs at hs <;> injection hs with hs <;> (rw [← hs])

/-! ## The force does the work of the outside pressure -/

section
variable {c : Ctx} {q : EdgeIn} {N : Nestor.SCtx} {nfp mpol ntor ntheta nzeta mg ng nt : Int} {R : Int → Ranges}

/-- **C109 (work of the boundary force).** Free-boundary, stellarator-symmetric run with at least three surfaces and the vacuum field on; thread `t` holds the
boundary. At every grid point `(k, l)` of the boundary the loop in `update` followed by the one in `assembleTotalForces` adds a force whose work on a
displacement of the boundary by `ξ` is `-(P / ΔS) ξ · (X_θ × nfp X_ζ)`: `X` is the surface NESTOR works with and `P` NESTOR's magnetic pressure at its point
`(l, k)` plus the edge pressure. -/
theorem C109_force (hs : Sizes.mk false nfp mpol ntor ntheta nzeta mg ng = .ok c.s) (hns : 3 ≤ c.ns) (hnt : 1 ≤ nt) (hT : Team nt c.ns true R) {t : Int}
    (ht : isThread nt t) (hc : c.r = R t) (hr : c.r.nsMaxF1 = c.ns) (hl : c.lfreeb = true) (hv : c.vacuum = true) (hsq : c.sqrtSF (c.ns - 1 - c.r.nsMinF1) = 1)
    {x : Coef → Int → ℝ} {g : Arr → Int → ℝ} (hg : Geometry c x g) (hN : surface c x N) (hq : q.r1e = g (.geo .r1 true) ∧ q.r1o = g (.geo .r1 false))
    (old : Edge) (u v : Int → ℝ) (d : FArr × Bool → Int → ℝ) :
    ∃ a, edge c q old = .ok a ∧ ∀ k l : Int, 0 ≤ k → k < c.s.nZeta → 0 ≤ l → l < c.s.nThetaReduced → ∀ re ro ze zo : ℝ,
      let F := edgeForce c (Constraint.fullOf c (g (.geo .ru true)) (g (.geo .ru false)) u) (Constraint.fullOf c (g (.geo .zu true)) (g (.geo .zu false)) v) a.rBSq d
      let i := (c.ns - 1 - c.r.nsMinF) * c.s.nZnT + (k * c.s.nThetaEff + l)
      let θ := N.theta (l * c.s.nZeta + k)
      let ζ := N.zeta (l * c.s.nZeta + k)
      let ξ : Nestor.V3 := Nestor.V3.rot (ζ / nfp) ⟨re + ro, 0, ze + zo⟩
      let P := q.vac (l * c.s.nZeta + k) + edgePressure c q.mass q.presH
      (F (.armn, true) i - d (.armn, true) i) * re + (F (.armn, false) i - d (.armn, false) i) * ro + (F (.azmn, true) i - d (.azmn, true) i) * ze +
        (F (.azmn, false) i - d (.azmn, false) i) * zo = -(P / q.deltaS) * ξ.dot ((N.Xθ θ ζ).cross ((N.Xζ θ ζ).smul nfp)) := by
  obtain ⟨f1, f2, f3, f4, f5, f6, f7, f8, f9⟩ := (lcfs_thread (by omega) hnt hT ht).2 (hc ▸ hr)
  rw [← hc] at f1 f2 f3 f4 f5 f6 f7 f8 f9
  have f9' := f9 hns rfl
  have fF : c.r.nsMaxF = c.ns := by rw [f2]; rfl
  have gG := Fourier.goodGrid_of_mk hs
  have gz := gG.nz
  obtain ⟨⟨a1, a2, a3, a4⟩, ⟨b1, b2, b3, b4⟩, _, ⟨d1, d2, _⟩, _⟩ := (Sizes.C07_sizes false nfp mpol ntor ntheta nzeta mg ng).2 c.s hs
  have heff : c.s.nThetaEff = c.s.nThetaReduced := by rw [d2]; simp
  have hZ : c.s.nZnT = c.s.nZeta * c.s.nThetaEff := (znt hs)
  have hny := gG.nyqP
  have hmp := gG.mpol
  have he : 0 < c.s.nThetaEff := by omega
  have hz0 : 0 ≤ c.s.nZnT := by rw [hZ]; exact mul_nonneg (by omega) (by omega)
  obtain ⟨a, ha, hA⟩ := C109_edge (q := q) hr (by omega) hz0 old
  refine ⟨a, ha, fun k l k0 k1 l0 l1 re ro ze zo => ?_⟩
  intro F i θ ζ ξ P
  have kl0 : 0 ≤ k * c.s.nThetaEff + l := by
    have : 0 ≤ k * c.s.nThetaEff := mul_nonneg k0 he.le
    omega
  have kl1 : k * c.s.nThetaEff + l < c.s.nZnT := by
    rw [hZ]
    have : (k + 1) * c.s.nThetaEff ≤ c.s.nZeta * c.s.nThetaEff := mul_le_mul_of_nonneg_right (by omega) he.le
    nlinarith
  have hi : i = (c.r.nsMaxF - 1 - c.r.nsMinF) * c.s.nZnT + (k * c.s.nThetaEff + l) := by rw [fF]
  have hpos : (c.ns - 1 - c.r.nsMinF1) * c.s.nZnT + (k * c.s.nThetaEff + l) = ((c.ns - 1 - c.r.nsMinF1) * c.s.nZeta + k) * c.s.nThetaEff + l := by rw [hZ]; ring
  obtain ⟨-, hB, -⟩ := hA _ kl0 kl1
  have full (e o w : Int → ℝ) : Constraint.fullOf c e o w i = e (((c.ns - 1 - c.r.nsMinF1) * c.s.nZeta + k) * c.s.nThetaEff + l)
      + o (((c.ns - 1 - c.r.nsMinF1) * c.s.nZeta + k) * c.s.nThetaEff + l) := by
    have := Constraint.fullOf_eq (c := c) e o w (j := c.ns - 1) (k := k * c.s.nThetaEff + l) ⟨by omega, by omega⟩ ⟨kl0, kl1⟩
    rw [hsq, one_mul, hpos] at this
    exact this
  have hout : outside c q (k * c.s.nThetaEff + l) = P := by
    unfold outside
    have e1 : (k * c.s.nThetaEff + l).tdiv c.s.nThetaEff = k := by
      rw [Int.tdiv_eq_ediv_of_nonneg kl0, add_comm, Int.add_mul_ediv_right _ _ he.ne', Int.ediv_eq_zero_of_lt l0 (by omega), zero_add]
    have e2 : (k * c.s.nThetaEff + l).tmod c.s.nThetaEff = l := by
      rw [Int.tmod_eq_emod_of_nonneg kl0, add_comm, Int.add_mul_emod_self_right, Int.emod_eq_of_lt l0 (by omega)]
    simp only [e1, e2]
    rfl
  rw [hpos, hq.1, hq.2, hout] at hB
  have hF (b : FArr × Bool) := edgeForce_apply (c := c) hl hv hr (Constraint.fullOf c (g (.geo .ru true)) (g (.geo .ru false)) u)
    (Constraint.fullOf c (g (.geo .zu true)) (g (.geo .zu false)) v) a.rBSq d b kl0 kl1
  simp only [← hi] at hF
  obtain ⟨-, sθ, rv, zv, sζ⟩ := C109_same_point (N := N) hs hr ⟨f5, by omega⟩ (by omega) hg hN ⟨k0, k1⟩ ⟨l0, l1⟩
  have hang := (same_angles (N := N) hs hN.1 (l := l) ⟨k0, k1⟩).2
  show (F (.armn, true) i - d (.armn, true) i) * re + (F (.armn, false) i - d (.armn, false) i) * ro + (F (.azmn, true) i - d (.azmn, true) i) * ze +
        (F (.azmn, false) i - d (.azmn, false) i) * zo = _
  simp only [F, hF, ξ, θ, ζ]
  rw [sθ, sζ, hang, Nestor.V3.cross_rot, Nestor.V3.dot_rot, full, full, hB]
  unfold Nestor.V3.dot Nestor.V3.cross
  simp only []
  ring
end

/-- a run meeting the assumptions: five surfaces on two threads, three poloidal and two toroidal modes -/
example : ∃ (c : Ctx) (R : Int → Ranges) (N : Nestor.SCtx) (x : Coef → Int → ℝ) (g : Arr → Int → ℝ), Sizes.mk false 5 3 2 0 0 3 2 = .ok c.s ∧ 3 ≤ c.ns ∧ Team 2 c.ns true R ∧
    isThread 2 1 ∧ c.r = R 1 ∧ c.r.nsMaxF1 = c.ns ∧ c.lfreeb = true ∧ c.vacuum = true ∧ c.sqrtSF (c.ns - 1 - c.r.nsMinF1) = 1 ∧ Geometry c x g ∧ surface c x N ∧
    (∃ kl, N.co .rCC kl ≠ 0) := by
  obtain ⟨R, hR⟩ := C01_team_exists 2 5 true (by norm_num) (by norm_num) (by norm_num)
  obtain ⟨s, hs⟩ := ((Sizes.C07_sizes false 5 3 2 0 0 3 2).1).1 (by norm_num)
  have ht : isThread 2 1 := ⟨by norm_num, by norm_num⟩
  have hl := (lcfs_thread (by norm_num) (by norm_num) hR ht).1.2 (by norm_num)
  obtain ⟨⟨_, _, m3, n2⟩, _⟩ := (Sizes.C07_sizes false 5 3 2 0 0 3 2).2 s hs
  let c : Ctx := { s, r := R 1, ns := 5, lfreeb := true, vacuum := true, xmpq := fun _ => 0, sqrtSF := fun _ => 1 }
  refine ⟨c, R, ⟨s, 0, 0, handOverCall c (named fun _ _ => 1) (fun _ _ => 0), true, -1⟩, fun _ _ => 1, fourierToRealDft c fun _ _ => 1, hs, by show (3 : Int) ≤ 5; norm_num, hR, ht, rfl, hl, rfl, rfl, rfl,
    Or.inl ⟨by show 0 < s.ntor; omega, rfl⟩, ⟨rfl, rfl⟩, 0 * s.mpol + 0, ?_⟩
  show handOverCall c (named fun _ _ => 1) (fun _ _ => 0) .rCC (0 * s.mpol + 0) ≠ 0
  rw [handOverCall, if_pos hl, C109_handover c.s _ _ _ .rCC (m := 0) (n := 0) ⟨le_refl _, by show 0 < s.mpol; omega⟩ ⟨le_refl _, by show 0 ≤ s.ntor; omega⟩]
  simp [present, named]

/-! ## The mismatch of the pressures -/

section
variable {c : Ctx} {lasym : Bool} {nfp mpol ntor ntheta nzeta mg ng : Int}

theorem wInt_pos (hs : Sizes.mk lasym nfp mpol ntor ntheta nzeta mg ng = .ok c.s) (l : Int) : (0 : ℝ) < Sizes.wInt c.s l := by
  have g := Fourier.goodGrid_of_mk hs
  have h1 := g.nz
  have h2 := g.nyqP
  have h3 := g.mpol
  have h4 := g.even
  have a : (0 : ℝ) < 1 / ((c.s.nZeta * (c.s.nThetaReduced - 1) : Int) : ℝ) := by
    refine one_div_pos.2 (Int.cast_pos.2 (mul_pos (by omega) (by omega)))
  have b : (0 : ℝ) < 1 / ((c.s.nZeta * c.s.nThetaEven : Int) : ℝ) := by
    refine one_div_pos.2 (Int.cast_pos.2 (mul_pos (by omega) (by omega)))
  unfold Sizes.wInt
  simp only []
  split <;> split <;> linarith

theorem delbsq_eq (a : Edge) (hl : c.lfreeb = true) : delbsq c .active a =
    (∑ kl ∈ Ico 0 c.s.nZnT, a.delBSq kl * Sizes.wInt c.s (kl.tmod c.s.nThetaEff)) / ∑ kl ∈ Ico 0 c.s.nZnT, a.inside kl * Sizes.wInt c.s (kl.tmod c.s.nThetaEff) := by
  unfold delbsq
  rw [if_pos ⟨hl, rfl⟩]
  have h1 := forRange_map (lo := 0) (hi := c.s.nZnT) (fun kl (p : ℝ × ℝ) => (p.1 + a.delBSq kl * Sizes.wInt c.s (kl.tmod c.s.nThetaEff),
    p.2 + a.inside kl * Sizes.wInt c.s (kl.tmod c.s.nThetaEff))) (fun kl v => v + a.delBSq kl * Sizes.wInt c.s (kl.tmod c.s.nThetaEff)) Prod.fst (fun _ _ => rfl) (0, 0)
  have h2 := forRange_map (lo := 0) (hi := c.s.nZnT) (fun kl (p : ℝ × ℝ) => (p.1 + a.delBSq kl * Sizes.wInt c.s (kl.tmod c.s.nThetaEff),
    p.2 + a.inside kl * Sizes.wInt c.s (kl.tmod c.s.nThetaEff))) (fun kl v => v + a.inside kl * Sizes.wInt c.s (kl.tmod c.s.nThetaEff)) Prod.snd (fun _ _ => rfl) (0, 0)
  rw [forRange_add, zero_add] at h1 h2
  simp only []
  rw [h1, h2]

/-- **C109 (`delbsq`).** With positive pressure inside, the reported mismatch of an active free-boundary run is not negative, zero exactly if the pressures
agree at every grid point, and `|ε|` if the outside pressure is `1 + ε` times the inside one; otherwise it is zero. -/
theorem C109_delbsq (hs : Sizes.mk lasym nfp mpol ntor ntheta nzeta mg ng = .ok c.s) (a : Edge) (out : Int → ℝ)
    (hd : ∀ kl, 0 ≤ kl → kl < c.s.nZnT → a.delBSq kl = |out kl - a.inside kl|) (hp : ∀ kl, 0 ≤ kl → kl < c.s.nZnT → 0 < a.inside kl) (state : VacState) :
    (c.lfreeb = true → state = .active →
      0 ≤ delbsq c state a ∧ (delbsq c state a = 0 ↔ ∀ kl, 0 ≤ kl → kl < c.s.nZnT → out kl = a.inside kl) ∧
      ∀ ε, (∀ kl, 0 ≤ kl → kl < c.s.nZnT → out kl = (1 + ε) * a.inside kl) → delbsq c state a = |ε|) ∧
    (¬ (c.lfreeb = true ∧ state = .active) → delbsq c state a = 0) := by
  refine ⟨fun hl hst => ?_, fun h => by unfold delbsq; rw [if_neg h]⟩
  subst hst
  rw [delbsq_eq a hl]
  have w := wInt_pos hs
  have gG := Fourier.goodGrid_of_mk hs
  have hz : 0 < c.s.nZnT := by
    rw [(znt hs)]
    have h1 := gG.nz
    have h2 := (goodP_of_mk hs).eff
    have h3 := gG.nyqP
    have h4 := gG.mpol
    exact mul_pos (by omega) (by omega)
  have den : 0 < ∑ kl ∈ Ico 0 c.s.nZnT, a.inside kl * Sizes.wInt c.s (kl.tmod c.s.nThetaEff) :=
    Finset.sum_pos (fun kl h => by rw [Finset.mem_Ico] at h; exact mul_pos (hp kl h.1 h.2) (w _)) ⟨0, Finset.mem_Ico.2 ⟨le_refl _, hz⟩⟩
  have num (kl : Int) (h : kl ∈ Ico 0 c.s.nZnT) : 0 ≤ a.delBSq kl * Sizes.wInt c.s (kl.tmod c.s.nThetaEff) := by
    rw [Finset.mem_Ico] at h
    rw [hd kl h.1 h.2]
    exact mul_nonneg (abs_nonneg _) (w _).le
  refine ⟨div_nonneg (Finset.sum_nonneg num) den.le, ?_, fun ε hε => ?_⟩
  · rw [div_eq_zero_iff, or_iff_left den.ne', Finset.sum_eq_zero_iff_of_nonneg num]
    refine forall_congr' fun kl => ?_
    rw [Finset.mem_Ico, and_imp]
    refine forall_congr' fun h0 => forall_congr' fun h1 => ?_
    rw [hd kl h0 h1, mul_eq_zero, or_iff_left (w _).ne', abs_eq_zero, sub_eq_zero]
  · rw [div_eq_iff den.ne', Finset.mul_sum]
    refine Finset.sum_congr rfl fun kl h => ?_
    rw [Finset.mem_Ico] at h
    rw [hd kl h.1 h.2, hε kl h.1 h.2, show (1 + ε) * a.inside kl - a.inside kl = ε * a.inside kl by ring, abs_mul, abs_of_pos (hp kl h.1 h.2), mul_assoc]
end

/-- pressures that meet the assumptions: one percent more outside -/
example {c : Ctx} (hs : Sizes.mk false 5 3 2 0 0 3 2 = .ok c.s) (hl : c.lfreeb = true) :
    delbsq c .active ⟨fun _ => 0, fun _ => 2, fun _ => |2 * (1 + 1 / 100) - 2|⟩ = |1 / 100| :=
  ((C109_delbsq hs ⟨fun _ => 0, fun _ => 2, fun _ => |2 * (1 + 1 / 100) - 2|⟩ (fun _ => 2 * (1 + 1 / 100)) (fun _ _ _ => rfl) (fun _ _ _ => by norm_num) .active).1 hl rfl).2.2
    (1 / 100) (fun _ _ _ => by norm_num)

/-! ## The checks -/

/-- **C109 (checks).** For finite values with `R B_φ ≠ 0` on the boundary the run goes on exactly if plasma and vacuum agree in the sign of `R B_φ` (one of
them may vanish) and the currents differ by at most one percent of `R B_φ`; a wrong sign is reported before a wrong current. -/
theorem C109_check (rB bV cT bU : ℚ) (h : rB ≠ 0) :
    (check (.fin rB) (.fin bV) (.fin cT) (.fin bU) = .pass ↔ 0 ≤ rB * bV ∧ |cT - bU| ≤ |rB| / 100) ∧
    (check (.fin rB) (.fin bV) (.fin cT) (.fin bU) = .wrongSign ↔ rB * bV < 0) := by
  have hpos : 0 < |rB| := abs_pos.2 h
  have key : |(cT + -bU) / rB| ≤ 1 / 100 ↔ |cT - bU| ≤ |rB| / 100 := by
    rw [abs_div, div_le_iff₀ hpos, ← sub_eq_add_neg, mul_comm, mul_one_div]
  unfold check
  simp only [D.mul, D.lt, sub, D.add, Coils.div, abs, if_neg h, decide_eq_true_eq]
  by_cases h1 : rB * bV < 0
  · simp [h1]
  · rw [if_neg h1]
    by_cases h2 : 1 / 100 < |(cT + -bU) / rB|
    · rw [if_pos h2]
      have h2' : ¬ |cT - bU| ≤ |rB| / 100 := by rw [← key]; exact not_le.2 h2
      simp [h1, h2']
    · rw [if_neg h2]
      have h2' := key.1 (not_lt.1 h2)
      simp [h1, h2', not_lt.1 h1]

example : check (.fin 2) (.fin 1) (.fin (1 / 100)) (.fin 0) = .pass ∧ check (.fin 2) (.fin 1) (.fin (3 / 100)) (.fin 0) = .currentMismatch ∧
    check (.fin 2) (.fin (-1)) (.fin (3 / 100)) (.fin 0) = .wrongSign := by decide +kernel

/-- **C109 is false of the code beyond finite values**: a vacuum field that is not a number passes both checks, and so does a plasma without toroidal field
whose current equals NESTOR's. -/
theorem C109_check_fails : (∀ rB cT, check rB .nan cT .nan = .pass) ∧ (∀ bV cT, check (.fin 0) (.fin bV) (.fin cT) (.fin cT) = .pass) := by
  constructor
  · intro rB cT
    have e : Coils.div (sub cT .nan) rB = .nan := by cases cT <;> cases rB <;> rfl
    unfold check
    rw [e]
    cases rB <;> simp [D.mul, D.lt, abs]
  · intro bV cT
    unfold check
    simp [D.mul, D.lt, sub, D.add, Coils.div, abs]

/-! ## The reference of the constraint force -/

theorem conShare_apply (c : Ctx) (con h : RZ → Int → ℝ) (hr : c.r.nsMaxF1 = c.ns) (b : RZ) {kl : Int} (h0 : 0 ≤ kl) (h1 : kl < c.s.nZnT) :
    conShare c con h b kl = con b ((c.ns - 1 - c.r.nsMinF) * c.s.nZnT + kl) := by
  unfold conShare
  rw [if_pos hr, forRange_apply _ b kl (fun j v => if kl = j then con b ((c.ns - 1 - c.r.nsMinF) * c.s.nZnT + j) else v)]
  · rw [forRange_only h0 h1 _ (fun j v _ _ hne => if_neg fun e => hne e.symm), if_pos rfl]
  · intro j s
    cases b <;> simp [put_apply]

theorem conSpread_apply (c : Ctx) (h con0 : RZ → Int → ℝ) (b : RZ) {j kl : Int} (hj : max 1 c.r.nsMinF ≤ j ∧ j < c.r.nsMaxFIncludingLcfs) (hk : 0 ≤ kl ∧ kl < c.s.nZnT) :
    conSpread c h con0 b ((j - c.r.nsMinF) * c.s.nZnT + kl) = h b kl * (c.sqrtSF (j - c.r.nsMinF1) * c.sqrtSF (j - c.r.nsMinF1)) := by
  unfold conSpread
  refine Constraint.grid2 (fun i (s : RZ → Int → ℝ) => s b i) (fun j k (s : RZ → Int → ℝ) =>
      put (put s .r ((j - c.r.nsMinF) * c.s.nZnT + k) (h .r k * (c.sqrtSF (j - c.r.nsMinF1) * c.sqrtSF (j - c.r.nsMinF1)))) .z
        ((j - c.r.nsMinF) * c.s.nZnT + k) (h .z k * (c.sqrtSF (j - c.r.nsMinF1) * c.sqrtSF (j - c.r.nsMinF1))))
    (fun j k _ => h b k * (c.sqrtSF (j - c.r.nsMinF1) * c.sqrtSF (j - c.r.nsMinF1))) (fun j k s i => ?_) con0 hj hk
  cases b <;> simp [put_apply]

theorem conDecay_apply (c : Ctx) (con0 : RZ → Int → ℝ) (b : RZ) {j kl : Int} (hj : c.r.nsMinF ≤ j ∧ j < c.r.nsMaxF) (hk : 0 ≤ kl ∧ kl < c.s.nZnT) :
    conDecay c con0 b ((j - c.r.nsMinF) * c.s.nZnT + kl) = con0 b ((j - c.r.nsMinF) * c.s.nZnT + kl) * (9 / 10) := by
  unfold conDecay
  refine Constraint.grid2 (fun i (s : RZ → Int → ℝ) => s b i) (fun j k (s : RZ → Int → ℝ) =>
      put (put s .r ((j - c.r.nsMinF) * c.s.nZnT + k) (s .r ((j - c.r.nsMinF) * c.s.nZnT + k) * (9 / 10))) .z ((j - c.r.nsMinF) * c.s.nZnT + k)
        ((put s .r ((j - c.r.nsMinF) * c.s.nZnT + k) (s .r ((j - c.r.nsMinF) * c.s.nZnT + k) * (9 / 10))) .z ((j - c.r.nsMinF) * c.s.nZnT + k) * (9 / 10)))
    (fun j k v => v * (9 / 10)) (fun j k s i => ?_) con0 hj hk
  by_cases e : i = (j - c.r.nsMinF) * c.s.nZnT + k
  · subst e; cases b <;> simp [put_apply]
  · cases b <;> simp [put_apply, e]

/-- `n` evaluations with the vacuum field on -/
noncomputable def decays (c : Ctx) : ℕ → (RZ → Int → ℝ) → RZ → Int → ℝ
  | 0, s => s
  | n + 1, s => conDecay c (decays c n s)

/-- **C109 (constraint reference).** For every number of threads and every order in which they enter: after `rzConIntoVolume` and `n` evaluations with the
vacuum field on, the reference at surface `j` is the boundary value of the constrained quantity times `j / (ns - 1)` times `0.9^n`. Here every thread that
evolves surface `j` sees it, for all surfaces from 1 to the boundary. -/
theorem C109_reference {T : Int → Ctx} {nt ns : Int} {R : Int → Ranges} {s : Sizes.Sizes} (hns : 2 ≤ ns) (hnt : 1 ≤ nt) (hT : Team nt ns true R)
    (hc : ∀ t, isThread nt t → (T t).r = R t ∧ (T t).ns = ns ∧ (T t).s = s ∧ ∀ j, (T t).sqrtSF (j - (R t).nsMinF1) = Real.sqrt (j / (ns - 1)))
    {L : List Int} (hL : ∀ t, t ∈ L ↔ isThread nt t) (con con0 : Int → RZ → Int → ℝ) (h : RZ → Int → ℝ) (n : ℕ) (b : RZ) {t j kl : Int} (ht : isThread nt t)
    (hj : max 1 (R t).nsMinF ≤ j ∧ j < (R t).nsMaxF) (hk : 0 ≤ kl ∧ kl < s.nZnT) :
    decays (T t) n (rzConIntoVolume T L con con0 h t) b ((j - (R t).nsMinF) * s.nZnT + kl) =
      con (nt - 1) b ((ns - 1 - (R (nt - 1)).nsMinF) * s.nZnT + kl) * ((j : ℝ) / (ns - 1)) * (9 / 10) ^ n := by
  obtain ⟨r1, r2, r3, r4⟩ := hc t ht
  have htl : isThread nt (nt - 1) := ⟨by omega, by omega⟩
  obtain ⟨l1, l2, l3, -⟩ := hc _ htl
  have dec (n : ℕ) (w : RZ → Int → ℝ) : decays (T t) n w b ((j - (R t).nsMinF) * s.nZnT + kl) = w b ((j - (R t).nsMinF) * s.nZnT + kl) * (9 / 10) ^ n := by
    induction n with
    | zero => simp [decays]
    | succ n ih =>
      have := conDecay_apply (T t) (decays (T t) n w) b (j := j) (kl := kl) (by rw [r1]; exact ⟨by omega, hj.2⟩) (by rw [r3]; exact hk)
      rw [r1, r3] at this
      rw [decays, this, ih, pow_succ, mul_assoc]
  rw [dec]
  have incl : (R t).nsMaxF ≤ (R t).nsMaxFIncludingLcfs := by
    obtain ⟨_, e1, e2, _, _, _, _, _, _, e7⟩ := team_facts hns hnt hT ht
    have hn : 0 ≤ numSurfacesToDistribute ns true := by unfold numSurfacesToDistribute; simp; omega
    have := split_le hn (show 0 < nt by omega) ht.2
    have hle : numSurfacesToDistribute ns true = ns := rfl
    rw [e7]
    split <;> omega
  unfold rzConIntoVolume
  set H := L.foldl (fun h t => conShare (T t) (con t) h) h with hH
  have sp := conSpread_apply (T t) H (con0 t) b (j := j) (kl := kl) (by rw [r1]; exact ⟨hj.1, by omega⟩) (by rw [r3]; exact hk)
  rw [r1, r3, r4] at sp
  rw [sp]
  have share : ∀ (L : List Int) (h : RZ → Int → ℝ), (∀ t ∈ L, isThread nt t) → nt - 1 ∈ L →
      L.foldl (fun h t => conShare (T t) (con t) h) h b kl = con (nt - 1) b ((ns - 1 - (R (nt - 1)).nsMinF) * s.nZnT + kl) := by
    intro L
    induction L using List.reverseRecOn with
    | nil => intro h _ hm; simp at hm
    | append_singleton L t' ih =>
      intro h hall hm
      rw [List.foldl_append, List.foldl_cons, List.foldl_nil]
      have ht' := hall t' (by simp)
      obtain ⟨q1, q2, q3, -⟩ := hc t' ht'
      by_cases e : t' = nt - 1
      · subst e
        have hlast := (lcfs_thread hns hnt hT htl).1.2 rfl
        rw [conShare_apply _ _ _ (by rw [q1, q2]; exact hlast) b hk.1 (by rw [q3]; exact hk.2), q1, q2, q3]
      · have hno : ¬ (T t').r.nsMaxF1 = (T t').ns := by
          rw [q1, q2]
          exact fun h => e ((lcfs_thread hns hnt hT ht').1.1 h)
        have : conShare (T t') (con t') (L.foldl (fun h t => conShare (T t) (con t) h) h) = L.foldl (fun h t => conShare (T t) (con t) h) h := by
          unfold conShare
          rw [if_neg hno]
        rw [this]
        refine ih h (fun t ht => hall t (by simp [ht])) ?_
        rcases List.mem_append.1 hm with h | h
        · exact h
        · simp at h; exact absurd h.symm e
  rw [hH, share L h (fun t ht => (hL t).1 ht) ((hL _).2 htl)]
  have hs0 : (0 : ℝ) ≤ (j : ℝ) / (ns - 1) := by
    have h1 : (0 : ℝ) ≤ j := by exact_mod_cast (by omega : (0 : Int) ≤ j)
    have h2 : (2 : ℝ) ≤ ns := by exact_mod_cast hns
    exact div_nonneg h1 (by linarith)
  rw [Real.mul_self_sqrt hs0]

/-- **C109 (the constraint returns).** The reference of `C109_reference` tends to zero as evaluations are made. -/
theorem C109_reference_vanishes (v : ℝ) : Filter.Tendsto (fun n : ℕ => v * (9 / 10 : ℝ) ^ n) Filter.atTop (nhds 0) := by
  have := (tendsto_pow_atTop_nhds_zero_of_lt_one (r := (9 / 10 : ℝ)) (by norm_num) (by norm_num)).const_mul v
  simpa using this

/-! ## Where it fails -/

/-- **The loop over the boundary is undefined with two surfaces**: every team on `ns = 2` reads `totalPressure` before its beginning. -/
theorem C109_two_surfaces_fails {c : Ctx} {q : EdgeIn} {nt : Int} {R : Int → Ranges} (hnt : 1 ≤ nt) (hT : Team nt 2 true R) {t : Int} (ht : isThread nt t)
    (hc : c.r = R t) (hn : c.ns = 2) (hr : c.r.nsMaxF1 = 2) (hz : 0 < c.s.nZnT) (a : Edge) : ∃ m, edge c q a = .ub m := by
  obtain ⟨_, e1, e2, e3, e4, e5, e6, _, _, e7⟩ := team_facts (by omega) hnt hT ht
  have h : c.r.nsMaxH - 2 - c.r.nsMinH = -1 := by
    have hn' : 0 ≤ numSurfacesToDistribute 2 true := by decide
    have b := split_le hn' (show 0 < nt by omega) ht.2
    have a := split_nonneg hn' (show 0 < nt by omega) ht.1
    have hle : numSurfacesToDistribute 2 true = 2 := rfl
    have g := split_ge (n := 2) (nt := nt) (k := 2) (by omega) (show 0 < nt by omega) (by omega) t
    rw [hle] at e1 e2 a b
    rw [hc] at hr ⊢
    omega
  refine ⟨"totalPressure[nsMaxH - 2]", ?_⟩
  unfold edge
  rw [if_pos (by omega)]
  unfold forRangeM
  rw [irange_cons hz]
  rw [List.foldlM_cons]
  have e : edgeOne c q 0 a = .ub "totalPressure[nsMaxH - 2]" := by
    unfold edgeOne
    rw [if_pos (by rw [h]; omega)]
  rw [e]
  rfl

end Verif.FreeBound
