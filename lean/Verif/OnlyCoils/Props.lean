import Verif.OnlyCoils.Model

/-! # C110: the free-boundary method `only_coils` -/
namespace Verif.OnlyCoils
open Verif Finset Fourier Nestor Partition

theorem axisField_zero {s : Sizes.Sizes} (hs : 0 ≤ s.nZeta * nvper s) (axis : Int → V3) (P : V3) : axisField s axis 0 P = ⟨0, 0, 0⟩ := by
  unfold axisField
  refine forRange_inv hs _ _ (fun (_ : Int) (b : V3) => b = ⟨0, 0, 0⟩) rfl ?_
  rintro j _ _ _ rfl
  unfold segmentField V3.add
  simp

theorem curtor_zero {c : SCtx} (hs : 0 ≤ c.s.nZeta * nvper c.s) (sg : Surf) (axis : Int → V3) (kl : Int) : c.curtor sg axis 0 kl = ⟨0, 0, 0⟩ := by
  unfold SCtx.curtor
  simp only []
  rw [axisField_zero hs]
  simp

theorem good_geometry {c : SCtx} (g : c.Good) : (geometry c).Good := ⟨g.grid, g.nfp, g.lo, g.hi⟩

/-- the field at a point of the surface, in Cartesian components -/
noncomputable def coilB (c : SCtx) (F : V3) (kl : Int) : V3 := F.rot (c.zeta kl / c.s.nfp)

/-- **C110 (field).** Whatever the net toroidal current and the axis are, the covariant components are those of the field of the coils alone. -/
theorem C110_field {c : SCtx} (g : c.Good) (hzt : c.s.nZnT = (if c.s.lasym then c.s.nThetaEven else c.s.nThetaReduced) * c.s.nZeta) (old : SArr) (oldS : Surf)
    (rAxis zAxis : Int → ℝ) (current : ℝ) (interp : Int → V3) {kl : Int} (h0 : c.ztMin ≤ kl) (h1 : kl < c.ztMax) :
    let ef := external c old oldS rAxis zAxis interp current
    let o := kl - c.ztMin
    let B := coilB c (interp o) kl
    ef.bSubU o = B.dot (c.Xθ (c.theta kl) (c.zeta kl)) ∧ ef.bSubV o = B.dot ((c.Xζ (c.theta kl) (c.zeta kl)).smul c.s.nfp) ∧
      ef.bDotN o = -B.dot (c.N (c.theta kl) (c.zeta kl)) := by
  intro ef o B
  have gg := good_geometry g
  have gz := g.grid.nz
  have hv := nvper_pos g.nfp
  obtain ⟨er, ez⟩ := SCtx.rz_any gg hzt old oldS h0 h1
  obtain ⟨tθ, tζ⟩ := SCtx.tangents gg old h0 h1 _ er
  have nrm := SCtx.C76_normal gg old oldS h0 h1
  have hB : B = V3.rot (c.zeta kl / c.s.nfp) (interp o) := rfl
  have e1 : c.Xθ (c.theta kl) (c.zeta kl) = _ := tθ
  have e2 : (c.Xζ (c.theta kl) (c.zeta kl)).smul c.s.nfp = _ := tζ
  have e3 : _ = c.N (c.theta kl) (c.zeta kl) := nrm
  have hz : (geometry c).curtor ((geometry c).update old oldS) (axisXYZ c.s rAxis zAxis) 0 kl = ⟨0, 0, 0⟩ :=
    curtor_zero (c := geometry c) (by show 0 ≤ c.s.nZeta * nvper c.s; positivity) _ _ _
  rw [hB, e1, e2, ← e3]
  have e4 : (geometry c).zeta kl = c.zeta kl := rfl
  have e5 : (geometry c).s = c.s := rfl
  rw [e4, e5]
  simp only [V3.dot_rot]
  unfold ef external SCtx.covariant
  have e6 : (geometry c).ztMin = c.ztMin := rfl
  simp only [o, e6, sub_add_cancel]
  rw [hz]
  unfold V3.dot V3.add
  simp only [add_zero]
  refine ⟨by ring, ?_, trivial⟩
  ring

/-- the values of one point -/
structure Value where
  bSq : ℝ
  br : ℝ
  bphi : ℝ
  bz : ℝ
def Shared.at (sh : Shared) (kl : Int) : Value := ⟨sh.bSq kl, sh.br kl, sh.bphi kl, sh.bz kl⟩
/-- specification: the field of the coils and half of its square -/
noncomputable def coilValue (F : V3) : Value := ⟨F.dot F / 2, F.x, F.y, F.z⟩

theorem points_at {c : SCtx} (hc : c.ztMin ≤ c.ztMax) (interp : Int → V3) (sh : Shared) (kl : Int) :
    (points c interp sh).at kl = if c.ztMin ≤ kl ∧ kl < c.ztMax then coilValue (interp (kl - c.ztMin)) else sh.at kl := by
  unfold points
  have := forRange_inv hc (point c interp) sh
    (fun (j : Int) (x : Shared) => ∀ kl, x.at kl = if c.ztMin ≤ kl ∧ kl < j then coilValue (interp (kl - c.ztMin)) else sh.at kl)
    (fun kl => by rw [if_neg (by omega)]) ?_
  · exact this kl
  · intro j x hj _ ih kl
    by_cases e : kl = j
    · subst e
      rw [if_pos (by omega)]
      unfold point Shared.at coilValue V3.dot
      simp only [upd_same]
      congr 1
      ring
    · have : (point c interp j x).at kl = x.at kl := by
        unfold point Shared.at
        simp only [upd_ne _ _ e]
      rw [this, ih kl]
      congr 1
      exact propext ⟨fun h => by omega, fun h => by omega⟩

/-- **C110 (shared arrays).** For every number of threads and every order in which they write, each point of the grid gets the field of the coils and
half of its square, and nothing else is written. -/
theorem C110_points {w : Net} (g : w.Good) (co : Coef → Int → ℝ) (sgn : Int) (F : Int → V3) (interp : Int → Int → V3)
    (hF : ∀ t, 0 ≤ t → t < w.nt → ∀ kl, splitMin w.s.nZnT w.nt t ≤ kl → kl < splitMax w.s.nZnT w.nt t → interp t (kl - splitMin w.s.nZnT w.nt t) = F kl)
    {L : List Int} (hL : w.Order L) (sh : Shared) (kl : Int) :
    (team w co sgn interp L sh).at kl = if 0 ≤ kl ∧ kl < w.s.nZnT then coilValue (F kl) else sh.at kl := by
  have hn := g.nznt
  have hp : 0 < w.nt := by have := g.nt; omega
  have key : ∀ (M : List Int) (x : Shared), (∀ t ∈ M, 0 ≤ t ∧ t < w.nt) →
      (M.foldl (fun sh t => points (w.surf co false sgn t) (interp t) sh) x).at kl =
        if ∃ t ∈ M, splitMin w.s.nZnT w.nt t ≤ kl ∧ kl < splitMax w.s.nZnT w.nt t then coilValue (F kl) else x.at kl := by
    intro M
    induction M with
    | nil => intro x _; simp
    | cons t M ih =>
      intro x h
      obtain ⟨ht, hM⟩ := List.forall_mem_cons.1 h
      rw [List.foldl_cons, ih _ hM, points_at (splitMin_le_max hn hp t)]
      by_cases e : splitMin w.s.nZnT w.nt t ≤ kl ∧ kl < splitMax w.s.nZnT w.nt t
      · have : (w.surf co false sgn t).ztMin ≤ kl ∧ kl < (w.surf co false sgn t).ztMax := e
        have hex : ∃ s ∈ t :: M, splitMin w.s.nZnT w.nt s ≤ kl ∧ kl < splitMax w.s.nZnT w.nt s := ⟨t, List.mem_cons_self, e⟩
        rw [if_pos this, if_pos hex]
        have hk : interp t (kl - (w.surf co false sgn t).ztMin) = F kl := hF t ht.1 ht.2 kl e.1 e.2
        rw [hk, ite_self]
      · have : ¬ ((w.surf co false sgn t).ztMin ≤ kl ∧ kl < (w.surf co false sgn t).ztMax) := e
        rw [if_neg this]
        congr 1
        refine propext ⟨fun ⟨s, hs, q⟩ => ⟨s, List.mem_cons_of_mem _ hs, q⟩, ?_⟩
        rintro ⟨s, hs, q⟩
        rcases List.mem_cons.1 hs with rfl | hs
        · exact absurd q e
        · exact ⟨s, hs, q⟩
  unfold team
  rw [key L sh fun t ht => (hL.2 t).1 ht]
  congr 1
  refine propext ⟨?_, fun h => ?_⟩
  · rintro ⟨t, ht, q⟩
    have ht := (hL.2 t).1 ht
    have a := split_nonneg hn hp ht.1
    have b := split_le hn hp ht.2
    omega
  · obtain ⟨t, a, b, q⟩ := split_exists hn hp h.1 h.2
    exact ⟨t, (hL.2 t).2 ⟨a, b⟩, q⟩

theorem potUV_zero {c : SCtx} {mf nf : Int} (h : 0 ≤ (mf + 1) * (2 * nf + 1)) (kl : Int) : c.potUV mf nf (fun _ => 0) kl = (0, 0) := by
  unfold SCtx.potUV
  simp only []
  refine forRange_inv h _ _ (fun (_ : Int) (b : ℝ × ℝ) => b = (0, 0)) rfl ?_
  rintro j _ _ _ rfl
  simp

/-- **C110 (net values).** For every number of threads and every order, the net values are the averages over the surface of the covariant components of
the field of the coils, the first times `2 π` and the sign of the Jacobian. -/
theorem C110_net {w : Net} (g : w.Good) (hm : w.mf < w.s.nThetaEven) (hn : w.nf < w.s.nZeta) (co : Coef → Int → ℝ) (sgn : Int)
    (F : Int → V3) (interp : Int → Int → V3)
    (hF : ∀ t, 0 ≤ t → t < w.nt → ∀ kl, splitMin w.s.nZnT w.nt t ≤ kl → kl < splitMax w.s.nZnT w.nt t → interp t (kl - splitMin w.s.nZnT w.nt t) = F kl)
    (old : Int → SArr) (oldS : Int → Surf) (rAxis zAxis : Int → ℝ) (current : ℝ) {L : List Int} (hL : w.Order L) :
    let c := w.surf co false sgn 0
    let X := fun θ ζ => (⟨c.R θ ζ * Real.cos (ζ / w.s.nfp), c.R θ ζ * Real.sin (ζ / w.s.nfp), c.Z θ ζ⟩ : V3)
    let B := fun l k => (F (l * w.s.nZeta + k)).rot (zetaGrid w.s k / w.s.nfp)
    netSub (L.map fun t => localSub (w.surf co false sgn t) (external (w.surf co false sgn t) (old t) (oldS t) rAxis zAxis (interp t) current)) =
      (sgn * 2 * Real.pi * w.average fun l k => (B l k).dot (V3.deriv (fun t => X t (zetaGrid w.s k)) (thetaGrid w.s l)),
       w.average fun l k => (B l k).dot ((V3.deriv (fun t => X (thetaGrid w.s l) t) (zetaGrid w.s k)).smul w.s.nfp)) := by
  intro c X B
  have g1 := g.mf0
  have g2 := g.nf0
  have e (t : Int) (ef : Ext) : localSub (w.surf co false sgn t) ef = (w.surf co false sgn t).localSub w.mf w.nf (fun _ => 0) ef := by
    unfold localSub SCtx.localSub SCtx.bSub
    simp only [potUV_zero (c := w.surf co false sgn t) (mf := w.mf) (nf := w.nf) (by positivity), zero_add]
  simp only [e]
  refine Net.C80_net g hm hn co false sgn (fun _ => 0) _ _ _ ?_ hL
  intro t t0 t1 kl h0 h1
  have hz : w.s.nZnT = (if w.s.lasym then w.s.nThetaEven else w.s.nThetaReduced) * w.s.nZeta := by rw [g.eff.2, g.eff.1]
  obtain ⟨a, b, _⟩ := C110_field (g.surf co false sgn t0 t1) hz (old t) (oldS t) rAxis zAxis current (interp t) (kl := kl) h0 h1
  have hk : interp t (kl - (w.surf co false sgn t).ztMin) = F (kl / w.s.nZeta * w.s.nZeta + kl % w.s.nZeta) := by
    rw [mul_comm, Int.mul_ediv_add_emod]
    exact hF t t0 t1 kl h0 h1
  rw [hk] at a b
  exact ⟨a, b⟩

theorem V3.perp {n U W D V : V3} (hn : n = U.cross W) (h1 : D.dot U = 0) (h2 : D.dot W = 0) (hV : V.dot n = 0) (h0 : n.dot n ≠ 0) :
    V.dot D = 0 ∧ D.dot D = (D.dot n) ^ 2 / n.dot n := by
  have hx : n.y * D.z - n.z * D.y = 0 := by
    rw [hn]; unfold V3.cross; unfold V3.dot at h1 h2; simp only []
    linear_combination W.x * h1 - U.x * h2
  have hy : n.z * D.x - n.x * D.z = 0 := by
    rw [hn]; unfold V3.cross; unfold V3.dot at h1 h2; simp only []
    linear_combination W.y * h1 - U.y * h2
  have hz : n.x * D.y - n.y * D.x = 0 := by
    rw [hn]; unfold V3.cross; unfold V3.dot at h1 h2; simp only []
    linear_combination W.z * h1 - U.z * h2
  have key (Q : V3) : Q.dot D * n.dot n = Q.dot n * D.dot n := by
    unfold V3.dot
    linear_combination (Q.z * n.y - Q.y * n.z) * hx + (Q.x * n.z - Q.z * n.x) * hy + (Q.y * n.x - Q.x * n.y) * hz
  constructor
  · have := key V
    rw [hV, zero_mul] at this
    exact (mul_eq_zero.1 this).resolve_right h0
  · rw [eq_div_iff h0, key D, sq]

theorem V3.compare {U W F G : V3} {α q : ℝ} (c1 : (G.rot α).dot U = (F.rot α).dot U) (c2 : (G.rot α).dot W = (F.rot α).dot W)
    (c3 : (G.rot α).dot (U.cross W) = 0) (c4 : q = (G.rot α).dot (G.rot α) / 2) (h : U.cross W ≠ ⟨0, 0, 0⟩) :
    F.dot F / 2 = q + ((F.rot α).dot (U.cross W)) ^ 2 / (U.cross W).dot (U.cross W) / 2 ∧ (G = F ↔ (F.rot α).dot (U.cross W) = 0) := by
  have hnn : (U.cross W).dot (U.cross W) ≠ 0 := by
    intro q
    apply h
    generalize U.cross W = n at q
    unfold V3.dot at q
    ext <;> simp only [] <;> nlinarith [sq_nonneg n.x, sq_nonneg n.y, sq_nonneg n.z]
  have sc := Real.sin_sq_add_cos_sq α
  have hFF : F.dot F = (F.rot α).dot (F.rot α) := (V3.dot_rot _ _ _).symm
  have inj : G.rot α = F.rot α → G = F := by
    intro e
    have hx := congrArg V3.x e
    have hy := congrArg V3.y e
    have hz := congrArg V3.z e
    unfold V3.rot at hx hy hz
    simp only [] at hx hy hz
    ext
    · linear_combination Real.cos α * hx + Real.sin α * hy - (G.x - F.x) * sc
    · linear_combination Real.cos α * hy - Real.sin α * hx - (G.y - F.y) * sc
    · exact hz
  have eqv : G = F ↔ G.rot α = F.rot α := ⟨fun e => by rw [e], inj⟩
  rw [hFF, eqv, c4]
  clear eqv inj hFF c4
  generalize G.rot α = T at *
  generalize F.rot α = B at *
  have d1 : (⟨B.x - T.x, B.y - T.y, B.z - T.z⟩ : V3).dot U = 0 := by unfold V3.dot at c1 ⊢; simp only []; linear_combination -c1
  have d2 : (⟨B.x - T.x, B.y - T.y, B.z - T.z⟩ : V3).dot W = 0 := by unfold V3.dot at c2 ⊢; simp only []; linear_combination -c2
  obtain ⟨p1, p2⟩ := V3.perp (n := U.cross W) rfl d1 d2 c3 hnn
  have d3 : (⟨B.x - T.x, B.y - T.y, B.z - T.z⟩ : V3).dot (U.cross W) = B.dot (U.cross W) := by
    generalize U.cross W = n at *
    unfold V3.dot at c3 ⊢
    simp only []
    linear_combination -c3
  rw [d3] at p2
  constructor
  · rw [← p2]
    unfold V3.dot at p1 ⊢
    simp only [] at p1 ⊢
    linear_combination p1
  · constructor
    · rintro rfl
      exact c3
    · intro q
      rw [q] at p2
      have hz : (⟨B.x - T.x, B.y - T.y, B.z - T.z⟩ : V3).dot ⟨B.x - T.x, B.y - T.y, B.z - T.z⟩ = 0 := by rw [p2]; simp
      unfold V3.dot at hz
      simp only [] at hz
      ext
      · nlinarith [sq_nonneg (B.x - T.x), sq_nonneg (B.y - T.y), sq_nonneg (B.z - T.z)]
      · nlinarith [sq_nonneg (B.x - T.x), sq_nonneg (B.y - T.y), sq_nonneg (B.z - T.z)]
      · nlinarith [sq_nonneg (B.x - T.x), sq_nonneg (B.y - T.y), sq_nonneg (B.z - T.z)]

/-- **C110 (compared with NESTOR).** Where the tangent vectors are independent, the pressure is that of the tangential field with the same covariant
components, which is what NESTOR shares if its potential vanishes, plus half of the square of the normal component; the two methods share the same field
exactly where the field of the coils is tangential. -/
theorem C110_nestor {c : SCtx} (g : c.Good) (hzt : c.s.nZnT = (if c.s.lasym then c.s.nThetaEven else c.s.nThetaReduced) * c.s.nZeta)
    (hsg : c.signOfJacobian ≠ 0) (old : SArr) (oldS : Surf)
    (rAxis zAxis : Int → ℝ) (current : ℝ) (interp : Int → V3) {kl : Int} (h0 : c.ztMin ≤ kl) (h1 : kl < c.ztMax)
    (hind : (c.Xθ (c.theta kl) (c.zeta kl)).cross (c.Xζ (c.theta kl) (c.zeta kl)) ≠ ⟨0, 0, 0⟩) :
    let ef := external c old oldS rAxis zAxis interp current
    let v := c.vacuum (c.inverseDFT old) (c.update old oldS) (ef.bSubU (kl - c.ztMin), ef.bSubV (kl - c.ztMin)) kl
    let F := interp (kl - c.ztMin)
    let B := coilB c F kl
    let n := (c.Xθ (c.theta kl) (c.zeta kl)).cross (c.Xζ (c.theta kl) (c.zeta kl))
    (coilValue F).bSq = v.bSqVac + (B.dot n) ^ 2 / n.dot n / 2 ∧ ((⟨v.br, v.bphi, v.bz⟩ : V3) = F ↔ B.dot n = 0) := by
  intro ef v F B n
  obtain ⟨a1, a2, _⟩ := C110_field g hzt old oldS rAxis zAxis current interp h0 h1
  obtain ⟨b1, b2, b3, b4⟩ := SCtx.C80_field g hzt old oldS (ef.bSubU (kl - c.ztMin), ef.bSubV (kl - c.ztMin)) h0 h1 hind
  have hn : (c.s.nfp : ℝ) ≠ 0 := by have := g.nfp; exact_mod_cast (by omega : c.s.nfp ≠ 0)
  have hs : (c.signOfJacobian : ℝ) ≠ 0 := by exact_mod_cast hsg
  have sm (A C : V3) (x : ℝ) : A.dot (C.smul x) = x * A.dot C := by unfold V3.dot V3.smul; ring
  refine V3.compare (b1.trans a1) ?_ ?_ b4 hind
  · have := b2.trans a2
    rw [sm, sm] at this
    exact mul_left_cancel₀ hn this
  · unfold SCtx.N at b3
    rw [sm] at b3
    exact (mul_eq_zero.1 b3).resolve_left (mul_ne_zero (neg_ne_zero.2 hs) hn)

/-- **C110 (input).** A free-boundary run with only the coils starts exactly if `curtor` and `pres_scale` are zero; NaN is refused. -/
theorem C110_input (i : Input) (hf : i.lfreeb = true) (ho : i.onlyCoils = true) :
    (construct i = .ok () ↔ i.curtor = .fin 0 ∧ i.pres_scale = .fin 0) := by
  unfold construct nonzero
  rw [hf, ho]
  by_cases a : i.curtor = .fin 0 <;> by_cases b : i.pres_scale = .fin 0 <;> simp [a, b]

/-! ## Where it fails -/

/-- **The net current is not checked.** The check does not look at `ncurr`: with a prescribed rotational transform (`ncurr = 0`) the plasma carries a
current whatever `curtor` is, and the run starts. The current which `update` gets has no influence on what it computes, whereas the field which NESTOR would
use differs between two currents wherever the field of the axis current does not vanish. -/
theorem C110_current_fails : (∃ i : Input, i.lfreeb = true ∧ i.onlyCoils = true ∧ i.ncurr = 0 ∧ construct i = .ok ()) ∧
    (∀ c old oldS rAxis zAxis interp I I', external c old oldS rAxis zAxis interp I = external c old oldS rAxis zAxis interp I') ∧
    (∀ I : ℝ, I ≠ 0 → segmentField I ⟨0, 0, 0⟩ ⟨0, 1, 0⟩ ⟨1, 0, 0⟩ ≠ segmentField 0 ⟨0, 0, 0⟩ ⟨0, 1, 0⟩ ⟨1, 0, 0⟩) := by
  refine ⟨⟨⟨true, true, .fin 0, .fin 0, 0⟩, rfl, rfl, rfl, by decide⟩, fun _ _ _ _ _ _ _ _ => rfl, fun I hI h => ?_⟩
  have := congrArg V3.z h
  unfold segmentField at this
  norm_num at this
  have h2 : (1 + √2) * (1 + √2) - 1 ≠ 0 := by
    have : 0 < √2 := by positivity
    nlinarith
  have h3 : 0 < √2 := by positivity
  rcases this with (h | h) | h
  · exact hI h
  · linarith
  · exact h2 h

/-! ## Examples -/

/-- three threads on a symmetric grid; the hypotheses of `C110_points`, `C110_net` hold for a field which is not constant -/
example : ∃ w : Net, w.Good ∧ w.mf < w.s.nThetaEven ∧ w.nf < w.s.nZeta ∧ w.Order [2, 0, 1] ∧ 0 < w.s.nZnT ∧
    (∀ t, 0 ≤ t → t < w.nt → ∀ kl, splitMin w.s.nZnT w.nt t ≤ kl → kl < splitMax w.s.nZnT w.nt t →
      (fun t o : Int => (⟨(o + splitMin w.s.nZnT w.nt t : Int), 1, 0⟩ : V3)) t (kl - splitMin w.s.nZnT w.nt t) = (fun kl : Int => (⟨kl, 1, 0⟩ : V3)) kl) := by
  obtain ⟨s, hs⟩ : ∃ s, Sizes.mk false 2 2 1 0 0 0 0 = .ok s := ⟨_, rfl⟩
  have hs' : s.nThetaEven = 10 ∧ s.nZeta = 6 ∧ s.mnyq2 = 10 ∧ s.nnyq2 = 6 ∧ s.nZnT = 36 := by cases hs; decide
  obtain ⟨e1, e2, e3, e4, e5⟩ := hs'
  refine ⟨⟨s, 1, 3, 3⟩, ⟨⟨false, 2, 2, 1, 0, 0, 0, 0, hs⟩, by norm_num, by norm_num, ?_, by norm_num, ?_⟩, ?_, ?_, ⟨by decide, fun t => ?_⟩, ?_, ?_⟩
  · simp only []; omega
  · simp only []; omega
  · simp only []; omega
  · simp only []; omega
  · simp only [List.mem_cons, List.not_mem_nil, or_false]
    omega
  · simp only []; omega
  · intro t _ _ kl _ _
    simp

/-- the checks of the constructor (the geometric hypotheses of `C110_field`, `C110_nestor` are met by the torus of the example for C79, C80 in `Nestor/PropsF.lean`): accepted, refused for a pressure, refused for NaN, not looked at with NESTOR -/
example : construct ⟨true, true, .fin 0, .fin 0, 1⟩ = .ok () ∧ construct ⟨true, true, .fin 0, .fin 1, 1⟩ ≠ .ok () ∧
    construct ⟨true, true, .nan, .fin 0, 1⟩ ≠ .ok () ∧ construct ⟨true, false, .fin 5, .fin 1, 1⟩ = .ok () := by decide

end Verif.OnlyCoils
