import Verif.FreeBound.Hand
import Verif.Partition.Props
import Verif.Transform.AxisymProps

/-! # C109: the force of the vacuum on the boundary -/
namespace Verif.FreeBound
open Verif Partition Transform Control Finset

/-- exactly the last thread has the boundary; in a free-boundary run it also evolves it -/
theorem lcfs_thread {nt ns : Int} {lfreeb : Bool} {R : Int → Ranges} (hns : 2 ≤ ns) (hnt : 1 ≤ nt) (hT : Team nt ns lfreeb R) {t : Int} (ht : isThread nt t) :
    ((R t).nsMaxF1 = ns ↔ t = nt - 1) ∧ ((R t).nsMaxF1 = ns → (R t).nsMaxFIncludingLcfs = ns ∧ (R t).nsMaxF = numSurfacesToDistribute ns lfreeb ∧ 0 ≤ (R t).nsMinF ∧
      (R t).nsMinF < (R t).nsMaxF ∧ 0 ≤ (R t).nsMinF1 ∧ (R t).nsMinF1 ≤ (R t).nsMinF ∧ (R t).nsMinH = (R t).nsMinF1 ∧ (R t).nsMaxH = ns - 1 ∧
      (3 ≤ ns → lfreeb = true → (R t).nsMinF1 ≤ ns - 3)) := by
  obtain ⟨h0, e1, e2, e3, e4, e5, e6, _, _, e7⟩ := team_facts hns hnt hT ht
  set n := numSurfacesToDistribute ns lfreeb with hn'
  have hn1 : n = ns ∧ lfreeb = true ∨ n = ns - 1 ∧ lfreeb = false := by
    rw [hn']; unfold numSurfacesToDistribute; cases lfreeb <;> simp
  have hn : 0 ≤ n := by omega
  have hp : (0 : Int) < nt := by omega
  have a := split_nonneg hn hp ht.1
  have b := split_le hn hp ht.2
  have ge1 := split_ge (n := n) (nt := nt) (k := 1) hn hp (by omega)
  have last : splitMax n nt (nt - 1) = n := by
    have := splitMax_eq_succ hn hp (nt - 1)
    rw [this, show nt - 1 + 1 = nt by ring, splitMin_last hn hp]
  have key : t ≠ nt - 1 → (R t).nsMaxF ≤ ns - 2 := by
    intro hne
    have h1 : splitMax n nt t = splitMin n nt (t + 1) := splitMax_eq_succ hn hp t
    have h2 : splitMin n nt (t + 1) ≤ splitMin n nt (nt - 1) := splitMin_mono hn hp (by have := ht.2; omega)
    have h3 := ge1 (nt - 1)
    rcases hn1 with hn1 | hn1
    · have := split_ge (n := n) (nt := nt) (k := 2) hn hp (by omega) (nt - 1)
      omega
    · omega
  have hiff : (R t).nsMaxF1 = ns ↔ t = nt - 1 := by
    constructor
    · intro h
      by_contra hne
      have := key hne
      omega
    · rintro rfl
      omega
  refine ⟨hiff, fun h => ?_⟩
  have ht' := hiff.1 h
  subst ht'
  have g := ge1 (nt - 1)
  have hmin : (R (nt - 1)).nsMinF1 ≤ (R (nt - 1)).nsMinF := by omega
  refine ⟨by rw [e7, if_pos h], by omega, by omega, by omega, by omega, hmin, e5, by omega, ?_⟩
  intro h3 hl
  have hnn : n = ns := by
    rcases hn1 with h | h
    · exact h.1
    · exact absurd (hl.symm.trans h.2) (by decide)
  have g2 := split_ge (n := n) (nt := nt) (k := 2) hn hp (by omega) (nt - 1)
  omega

/-- the real-space geometry of a symmetric run: the three-dimensional transform, or the one without toroidal modes on one plane -/
def Geometry (c : Ctx) (x : Coef → Int → ℝ) (g : Arr → Int → ℝ) : Prop :=
  (0 < c.s.ntor ∧ g = fourierToRealDft c x) ∨ (c.s.ntor = 0 ∧ c.s.nZeta = 1 ∧ 2 ≤ c.s.mpol ∧ ∃ old, g = fourierToReal2d c x old)

section
variable {c : Ctx} {N : Nestor.SCtx} {nfp mpol ntor ntheta nzeta mg ng : Int}

theorem geometry_at (hs : Sizes.mk false nfp mpol ntor ntheta nzeta mg ng = .ok c.s) {x : Coef → Int → ℝ} {g : Arr → Int → ℝ} (hg : Geometry c x g)
    (a : GArr) (e : Bool) (ha : a ≠ .rv ∧ a ≠ .zv ∧ a ≠ .lv) {jF k l : Int} (hj : c.r.nsMinF1 ≤ jF ∧ jF < c.r.nsMaxF1) (h0 : 0 ≤ jF) (hk : 0 ≤ k ∧ k < c.s.nZeta)
    (hl : 0 ≤ l ∧ l < c.s.nThetaReduced) :
    g (.geo a e) (((jF - c.r.nsMinF1) * c.s.nZeta + k) * c.s.nThetaEff + l) =
      fourierToRealDft c x (.geo a e) (((jF - c.r.nsMinF1) * c.s.nZeta + k) * c.s.nThetaEff + l) := by
  rcases hg with ⟨-, rfl⟩ | ⟨h1, h2, h3, old, rfl⟩
  · rfl
  · have e3 : nzeta ≤ 1 := by
      by_contra hz
      unfold Sizes.mk at hs
      split_ifs at hs <;> injection hs with hs <;> (have e1 := congrArg Sizes.Sizes.nZeta hs; have e2 := congrArg Sizes.Sizes.ntor hs; simp only [] at e1 e2; omega)
    obtain ⟨⟨a1, a2, a3, a4⟩, _⟩ := (Sizes.C07_sizes false nfp mpol ntor ntheta nzeta mg ng).2 c.s hs
    have hk0 : k = 0 := by omega
    have hn0 : ntor = 0 := by omega
    subst hk0 hn0
    have := C65_geometry_partial hs e3 (by omega) x old a e ha hj h0 hl
    rw [h2]
    rw [show ((jF - c.r.nsMinF1) * 1 + 0) * c.s.nThetaEff + l = (jF - c.r.nsMinF1) * c.s.nThetaEff + l by ring]
    exact this

/-- **C109 (same point).** In the symmetric case the surface whose field NESTOR computes passes, at NESTOR's grid point `(l, k)`, through the point of the
plasma boundary at the plasma's grid point `(k, l)`, with the same poloidal tangent vector. -/
theorem C109_same_point (hs : Sizes.mk false nfp mpol ntor ntheta nzeta mg ng = .ok c.s) (hr : c.r.nsMaxF1 = c.ns) (h1 : 0 ≤ c.r.nsMinF1 ∧ c.r.nsMinF1 < c.ns)
    (hns : 2 ≤ c.ns) {x : Coef → Int → ℝ} {g : Arr → Int → ℝ} (hg : Geometry c x g) (hN : surface c x N) {k l : Int} (hk : 0 ≤ k ∧ k < c.s.nZeta)
    (hl : 0 ≤ l ∧ l < c.s.nThetaReduced) :
    let i := ((c.ns - 1 - c.r.nsMinF1) * c.s.nZeta + k) * c.s.nThetaEff + l
    let G := fun a => g (.geo a true) i + g (.geo a false) i
    let θ := N.theta (l * c.s.nZeta + k)
    let ζ := N.zeta (l * c.s.nZeta + k)
    N.X θ ζ = Nestor.V3.rot (Spec.gridPhi c.s k) ⟨G .r1, 0, G .z1⟩ ∧ N.Xθ θ ζ = Nestor.V3.rot (Spec.gridPhi c.s k) ⟨G .ru, 0, G .zu⟩ ∧
    ∃ rv zv, (N.Xζ θ ζ).smul nfp = Nestor.V3.rot (Spec.gridPhi c.s k) ⟨rv, G .r1, zv⟩ := by
  intro i G θ ζ
  obtain ⟨t1, t2⟩ := same_angles (N := N) hs hN.1 (l := l) hk
  change θ = _ at t1
  change ζ / nfp = _ at t2
  obtain ⟨⟨a1, a2, a3, a4⟩, _⟩ := (Sizes.C07_sizes false nfp mpol ntor ntheta nzeta mg ng).2 c.s hs
  have hok := ((Sizes.C07_sizes false nfp mpol ntor ntheta nzeta mg ng).1).2 ⟨c.s, hs⟩
  have hf : (nfp : ℝ) ≠ 0 := by exact_mod_cast (by omega : nfp ≠ 0)
  have S := surface_series hs hr hns x hN
  have C := fun e => C63_geometry hs x e (jF := c.ns - 1) ⟨by omega, by omega⟩ (by omega) hk hl
  have A := fun a e ha => geometry_at hs hg a e ha (jF := c.ns - 1) ⟨by omega, by omega⟩ (by omega) hk hl
  have hnf : N.s.nfp = nfp := by rw [hN.1, a2]
  have R1 : N.R θ ζ = G .r1 := by
    rw [(S θ ζ).1, Fintype.sum_bool, t1, t2]
    show _ = g (.geo .r1 true) i + g (.geo .r1 false) i
    rw [A .r1 true (by decide), A .r1 false (by decide)]
    exact congrArg₂ (· + ·) (C true).1.symm (C false).1.symm
  have Z1 : N.Z θ ζ = G .z1 := by
    rw [(S θ ζ).2, Fintype.sum_bool, t1, t2]
    show _ = g (.geo .z1 true) i + g (.geo .z1 false) i
    rw [A .z1 true (by decide), A .z1 false (by decide)]
    exact congrArg₂ (· + ·) (C true).2.2.2.1.symm (C false).2.2.2.1.symm
  have Ru : HasDerivAt (fun t => N.R t ζ) (G .ru) θ := by
    have e : (fun t => N.R t ζ) = fun t => _ := funext fun t => (S t ζ).1
    rw [e, t1, t2]
    simp only [Fintype.sum_bool]
    show HasDerivAt _ (g (.geo .ru true) i + g (.geo .ru false) i) _
    rw [A .ru true (by decide), A .ru false (by decide)]
    exact (C true).2.1.add (C false).2.1
  have Zu : HasDerivAt (fun t => N.Z t ζ) (G .zu) θ := by
    have e : (fun t => N.Z t ζ) = fun t => _ := funext fun t => (S t ζ).2
    rw [e, t1, t2]
    simp only [Fintype.sum_bool]
    show HasDerivAt _ (g (.geo .zu true) i + g (.geo .zu false) i) _
    rw [A .zu true (by decide), A .zu false (by decide)]
    exact (C true).2.2.2.2.1.add (C false).2.2.2.2.1
  have ru' : N.ev (N.full .r).dθ θ ζ = G .ru := by
    have := (N.ev_θ (N.full .r) θ ζ)
    have e : (fun t => N.ev (N.full .r) t ζ) = fun t => N.R t ζ := funext fun t => (N.R_eq t ζ).symm
    rw [e] at this
    exact this.unique Ru
  have zu' : N.ev (N.full .z).dθ θ ζ = G .zu := by
    have := (N.ev_θ (N.full .z) θ ζ)
    have e : (fun t => N.ev (N.full .z) t ζ) = fun t => N.Z t ζ := funext fun t => (N.Z_eq t ζ).symm
    rw [e] at this
    exact this.unique Zu
  refine ⟨?_, ?_, ?_⟩
  · rw [N.X_eq, ← N.R_eq, ← N.Z_eq, R1, Z1, hnf, t2]
  · rw [N.Xθ_eq, ru', zu', hnf, t2]
  · refine ⟨nfp * N.ev (N.full .r).dζ θ ζ, nfp * N.ev (N.full .z).dζ θ ζ, ?_⟩
    rw [N.Xζ_eq, Nestor.V3.smul_rot, hnf, t2, ← N.R_eq, R1]
    unfold Nestor.V3.smul
    simp only []
    rw [mul_div_cancel₀ _ hf]
end

/-! ## The arrays of the boundary -/

variable {c : Ctx} {q : EdgeIn}

/-- **C109 (edge arrays).** With two half-grid surfaces in the thread the loop reads no surface outside the arrays and stores, at every point, the extrapolated
pressure inside, the pressure outside times radius over the grid spacing, and the jump. -/
theorem C109_edge (hr : c.r.nsMaxF1 = c.ns) (h2 : 0 ≤ c.r.nsMaxH - 2 - c.r.nsMinH) (hz : 0 ≤ c.s.nZnT) (a : Edge) :
    ∃ b, edge c q a = .ok b ∧ ∀ kl, 0 ≤ kl → kl < c.s.nZnT →
      b.inside kl = 3 / 2 * q.total ((c.r.nsMaxH - 1 - c.r.nsMinH) * c.s.nZnT + kl) - 1 / 2 * q.total ((c.r.nsMaxH - 2 - c.r.nsMinH) * c.s.nZnT + kl) ∧
      b.rBSq kl = outside c q kl * (q.r1e ((c.ns - 1 - c.r.nsMinF1) * c.s.nZnT + kl) + q.r1o ((c.ns - 1 - c.r.nsMinF1) * c.s.nZnT + kl)) / q.deltaS ∧
      b.delBSq kl = |outside c q kl - b.inside kl| := by
  unfold edge
  rw [if_pos hr]
  obtain ⟨b, hb, hp⟩ := forRangeM_inv hz (edgeOne c q) a (fun j (b : Edge) => ∀ kl, 0 ≤ kl → kl < j →
      b.inside kl = 3 / 2 * q.total ((c.r.nsMaxH - 1 - c.r.nsMinH) * c.s.nZnT + kl) - 1 / 2 * q.total ((c.r.nsMaxH - 2 - c.r.nsMinH) * c.s.nZnT + kl) ∧
      b.rBSq kl = outside c q kl * (q.r1e ((c.ns - 1 - c.r.nsMinF1) * c.s.nZnT + kl) + q.r1o ((c.ns - 1 - c.r.nsMinF1) * c.s.nZnT + kl)) / q.deltaS ∧
      b.delBSq kl = |outside c q kl - b.inside kl|) (fun kl h0 h1 => by omega) (by
    intro j b h0 h1 ih
    have : 0 ≤ (c.r.nsMaxH - 2 - c.r.nsMinH) * c.s.nZnT := mul_nonneg h2 hz
    unfold edgeOne
    rw [if_neg (by omega)]
    refine ⟨_, rfl, fun kl k0 k1 => ?_⟩
    by_cases e : kl = j
    · subst e
      simp [hr]
    · simp only [upd_ne _ _ e]
      exact ih kl k0 (by omega))
  exact ⟨b, hb, hp⟩

/-! ## The force -/

theorem forceOne_apply (ru zu rB : Int → ℝ) (kl : Int) (d : FArr × Bool → Int → ℝ) (b : FArr × Bool) (i : Int) :
    forceOne c ru zu rB kl d b i = if i = (c.r.nsMaxF - 1 - c.r.nsMinF) * c.s.nZnT + kl then
      d b i + (match b.1 with | .armn => zu i * rB kl | .azmn => -(ru i * rB kl) | _ => 0) else d b i := by
  unfold forceOne
  simp only [addTo_apply]
  obtain ⟨f, e⟩ := b
  by_cases h : i = (c.r.nsMaxF - 1 - c.r.nsMinF) * c.s.nZnT + kl
  · cases f <;> cases e <;> simp [h]
  · simp [h]

/-- what `assembleTotalForces` adds at a boundary point -/
theorem edgeForce_apply (hl : c.lfreeb = true) (hv : c.vacuum = true) (hr : c.r.nsMaxF1 = c.ns) (ru zu rB : Int → ℝ) (d : FArr × Bool → Int → ℝ)
    (b : FArr × Bool) {kl : Int} (h0 : 0 ≤ kl) (h1 : kl < c.s.nZnT) :
    let i := (c.r.nsMaxF - 1 - c.r.nsMinF) * c.s.nZnT + kl
    edgeForce c ru zu rB d b i = d b i + (match b.1 with | .armn => zu i * rB kl | .azmn => -(ru i * rB kl) | _ => 0) := by
  intro i
  unfold edgeForce
  rw [if_pos ⟨hl, hv, hr⟩, forRange_map (forceOne c ru zu rB) (fun kl' v => if i = (c.r.nsMaxF - 1 - c.r.nsMinF) * c.s.nZnT + kl' then
      v + (match b.1 with | .armn => zu i * rB kl' | .azmn => -(ru i * rB kl') | _ => 0) else v) (fun d => d b i)
      (fun kl' d => forceOne_apply ru zu rB kl' d b i)]
  rw [forRange_only h0 h1]
  · rw [if_pos rfl]
  · intro k' v _ _ hne
    rw [if_neg]
    intro e
    exact hne (by omega)

/-- **C109 (nothing else).** Without a vacuum field, on the other threads, away from the boundary and in the other arrays nothing is added. -/
theorem C109_elsewhere (ru zu rB : Int → ℝ) (d : FArr × Bool → Int → ℝ) (b : FArr × Bool) (i : Int)
    (h : ¬ (c.lfreeb = true ∧ c.vacuum = true ∧ c.r.nsMaxF1 = c.ns) ∨ (b.1 ≠ .armn ∧ b.1 ≠ .azmn) ∨
      i < (c.r.nsMaxF - 1 - c.r.nsMinF) * c.s.nZnT ∨ (c.r.nsMaxF - c.r.nsMinF) * c.s.nZnT ≤ i) : edgeForce c ru zu rB d b i = d b i := by
  unfold edgeForce
  split
  · rename_i hc
    rw [forRange_map (forceOne c ru zu rB) (fun kl' v => if i = (c.r.nsMaxF - 1 - c.r.nsMinF) * c.s.nZnT + kl' then
      v + (match b.1 with | .armn => zu i * rB kl' | .azmn => -(ru i * rB kl') | _ => 0) else v) (fun d => d b i)
      (fun kl' d => forceOne_apply ru zu rB kl' d b i)]
    refine forRange_none _ (fun k v h0 h1 => ?_) _
    rcases h with h | h | h | h
    · exact absurd hc h
    · obtain ⟨f, e⟩ := b
      cases f <;> simp at h ⊢
    · rw [if_neg (by omega)]
    · rw [if_neg]
      intro e
      have : (c.r.nsMaxF - c.r.nsMinF) * c.s.nZnT = (c.r.nsMaxF - 1 - c.r.nsMinF) * c.s.nZnT + c.s.nZnT := by ring
      omega
  · rfl

end Verif.FreeBound
