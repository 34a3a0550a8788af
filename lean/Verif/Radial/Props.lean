import Verif.Radial.Pivots
import Verif.Radial.Apply
import Verif.Sizes.Props

/-! # C81: the radial preconditioner of the R and Z forces -/
namespace Verif.Radial
open Verif Finset Partition

/-- specification: extra weight of the boundary in its own equation (`edge_pedestal` and the reduction of the up-down shift) -/
noncomputable def edgeShare (deltaS : ℝ) (σ : Side) (m n : Int) : ℝ :=
  if σ = .Z ∧ m = 0 ∧ n = 0 then -min 0.25 (0.25 * deltaS * 15) else if m ≤ 1 then 0.05 else 0.1

/-- specification: left-hand side of the equation of surface `j` for mode `(m, n)` -/
noncomputable def Glob.lhs (G : Glob) (X : GCoord) (σ : Side) (m n jMax : Int) (x : Int → ℝ) (j : Int) : ℝ :=
  -G.form X m n (active m (jMinOf m) jMax x) (unit j)
    - (if j = G.ns - 1 then edgeShare G.deltaS σ m n else 0) * G.form X m n (unit j) (unit j) * x j

theorem edgeFactor_eq (deltaS : ℝ) (σ : Side) (m n : Int) : edgeFactor deltaS σ.diag m n = 1 + edgeShare deltaS σ m n := by
  unfold edgeFactor edgeShare
  cases σ <;> simp only [Side.diag, reduceCtorEq, false_and, true_and, if_false]
  · split <;> norm_num
  · split
    · ring
    · split <;> norm_num

theorem jMaxOf_cases (ns : Int) (lfreeb vacuum : Bool) : jMaxOf ns lfreeb vacuum = ns - 1 ∨ jMaxOf ns lfreeb vacuum = ns := by
  unfold jMaxOf; split <;> simp

/-- C81: the boundary surface takes part in the solve exactly when the run is a free-boundary one and the vacuum field is
    present; the axis takes part for `m = 0` only -/
theorem C81_range (ns m : Int) (hm : 0 ≤ m) (lfreeb vacuum : Bool) :
    ((lfreeb = true ∧ vacuum = true → jMaxOf ns lfreeb vacuum = ns) ∧
      (lfreeb = false ∨ vacuum = false → jMaxOf ns lfreeb vacuum = ns - 1)) ∧
      ((m = 0 → jMinOf m = 0) ∧ (m ≠ 0 → jMinOf m = 1)) := by
  refine ⟨⟨?_, ?_⟩, ?_, ?_⟩
  · rintro ⟨rfl, rfl⟩; rfl
  · rintro (rfl | rfl)
    · rfl
    · cases lfreeb <;> rfl
  · rintro rfl; rfl
  · intro h
    exact if_pos (by omega)

theorem row_form {G : Glob} {S : Pair} {σ : Side} {m n jMax j : Int} {a d b : ℝ} (hns : 3 ≤ G.ns) (hmax : jMax = G.ns - 1 ∨ jMax = G.ns) (h0 : jMinOf m ≤ j)
    (h1 : j < jMax) (ha : j < G.ns - 1 → a = -G.q (S σ) m n j) (hb : 0 < j → b = -G.q (S σ) m n (j - 1))
    (hd : d = -((if 0 < j then G.r (S σ) m n (j - 1) else 0) + (if j < G.ns - 1 then G.p (S σ) m n j else 0)
      + (if j = 1 ∧ m = 1 then G.q (S σ) m n 0 else 0)) * (if j = G.ns - 1 then edgeFactor G.deltaS σ.diag m n else 1)) (x : Int → ℝ) :
    (if jMinOf m < j then b * x (j - 1) else 0) + d * x j + (if j + 1 < jMax then a * x (j + 1) else 0) = G.lhs (S σ) σ m n jMax x j := by
  have hj0 : 0 ≤ j := by unfold jMinOf at h0; split at h0 <;> omega
  unfold Glob.lhs
  rw [Glob.form_unit G (S σ) m n _ hj0 (by omega), Glob.form_unit G (S σ) m n _ hj0 (by omega), hd, edgeFactor_eq]
  have a0 : active m (jMinOf m) jMax x j = x j := if_pos ⟨h0, h1⟩
  have u0 : unit j j = 1 := if_pos rfl
  have u1 : unit j (j + 1) = 0 := if_neg (by omega)
  have u2 : unit j (j - 1) = 0 := if_neg (by omega)
  have a1 : active m (jMinOf m) jMax x (j + 1) = if j + 1 < jMax then x (j + 1) else 0 := by
    unfold active
    by_cases h : j + 1 < jMax
    · rw [if_pos ⟨by omega, h⟩, if_pos h]
    · rw [if_neg (fun e => h e.2), if_neg (by omega), if_neg h]
  have a2 : active m (jMinOf m) jMax x (j - 1) = if jMinOf m < j then x (j - 1) else if m = 1 ∧ j = 1 then x 1 else 0 := by
    unfold active
    by_cases h : jMinOf m < j
    · rw [if_pos ⟨by omega, by omega⟩, if_pos h]
    · rw [if_neg (fun e => h (by omega)), if_neg h]
      exact if_congr (and_congr_right fun _ => by omega) rfl rfl
  rw [a0, u0, u1, u2, a1, a2]
  have key1 : (if jMinOf m < j then b * x (j - 1) else 0) = -(if 0 < j then G.q (S σ) m n (j - 1) * (if jMinOf m < j then x (j - 1) else 0) else 0) := by
    by_cases h : jMinOf m < j
    · have : 0 < j := by unfold jMinOf at h; split at h <;> omega
      rw [if_pos h, if_pos this, if_pos h, hb this]; ring
    · rw [if_neg h, if_neg h]; simp
  have key2 : (if j + 1 < jMax then a * x (j + 1) else 0) = -(if j < G.ns - 1 then G.q (S σ) m n j * (if j + 1 < jMax then x (j + 1) else 0) else 0) := by
    by_cases h : j + 1 < jMax
    · have : j < G.ns - 1 := by omega
      rw [if_pos h, if_pos this, if_pos h, ha this]; ring
    · rw [if_neg h, if_neg h]; simp
  rw [key1, key2]
  by_cases hm : j = 1 ∧ m = 1
  · obtain ⟨rfl, rfl⟩ := hm
    have e : jMinOf 1 = 1 := rfl
    simp only [e, lt_irrefl, if_false, and_self, if_true, show (0 : Int) < 1 by omega, show (1 : Int) < G.ns - 1 by omega, show ¬ ((1 : Int) = G.ns - 1) by omega,
      sub_self]
    ring
  · rw [if_neg hm, show (if jMinOf m < j then x (j - 1) else if m = 1 ∧ j = 1 then x 1 else 0) = (if jMinOf m < j then x (j - 1) else 0) by
      rw [if_neg (show ¬ (m = 1 ∧ j = 1) from fun e => hm ⟨e.2, e.1⟩)]]
    by_cases h : j = G.ns - 1
    · simp only [if_pos h, if_neg (show ¬ j < G.ns - 1 by omega), if_pos (show 0 < j by omega)]; ring
    · simp only [if_neg h, if_pos (show j < G.ns - 1 by omega)]
      split <;> ring

/-- **C81** (matrix): the rows that `assembleRZPreconditioner` stores are minus the quadratic form of the highest derivatives, tested with a unit displacement of the
surface, plus the extra weight of the boundary.  For `m = 1` the axis moves with the first surface. -/
theorem C81_form {c : PCtx} {G : Glob} (h : Holds c G) {S : Pair} {x : Side → Coord} (hx : ∀ σ, HoldsX c G (x σ) (S σ)) (g : GoodR c.r c.ns)
    (hm2 : 2 ≤ c.s.mpol) (hns : 3 ≤ c.ns) (lfreeb vacuum : Bool) (oldE : Side → Ent → Int → ℝ) (old : Arr → Int → ℝ) {jF m n : Int}
    (j0 : c.r.nsMinF ≤ jF) (j1 : jF < c.r.nsMaxF) (j2 : jMinOf m ≤ jF) (j3 : jF < jMaxOf c.ns lfreeb vacuum)
    (m0 : 0 ≤ m) (m1 : m < c.s.mpol) (n0 : 0 ≤ n) (n1 : n ≤ c.s.ntor) (σ : Side) (y : Int → ℝ) :
    let A := c.assemble lfreeb vacuum (c.computePreconditioningMatrix (x .R) (oldE .R)) (c.computePreconditioningMatrix (x .Z) (oldE .Z)) old
    (if jMinOf m < jF then A σ.sub (c.idx jF m n) * y (jF - 1) else 0) + A σ.diag (c.idx jF m n) * y jF
      + (if jF + 1 < jMaxOf c.ns lfreeb vacuum then A σ.sup (c.idx jF m n) * y (jF + 1) else 0)
      = G.lhs (S σ) σ m n (jMaxOf c.ns lfreeb vacuum) y jF := by
  intro A
  obtain ⟨e1, e2, e3⟩ := assemble_eq h hx g hm2 hns lfreeb vacuum oldE old j0 j1 j2 j3 m0 m1 n0 n1 σ
  have hG := h.ns
  rw [hG, h.deltaS] at e3
  rw [hG] at e1
  refine row_form (hG ▸ hns) (hG ▸ jMaxOf_cases c.ns lfreeb vacuum) j2 j3 ?_ ?_ ?_ y
  · exact e1
  · exact e2
  · exact e3

/-- **C81** (definiteness): where the jacobian does not change sign, pressure and `R` are positive and the surfaces have a poloidal derivative, elimination in the
matrix meets no zero pivot: all leading minors are different from zero.  For `m = 1` this needs that the innermost cell resists a motion of axis and first surface. -/
theorem C81_definite {G : Glob} {S : Pair} {σ : Side} {m n jMax : Int} {a d b : Int → ℝ} (w : Rows G S σ m n (jMinOf m) jMax a d b) (h : G.Phys S) (hns : 3 ≤ G.ns)
    (m0 : 0 ≤ m) (hmax : jMax = G.ns - 1 ∨ jMax = G.ns) (hcore : m = 1 → 0 < G.cell (S σ) 1 n (fun _ => 1) (unit 1) 0) :
    ∀ i : ℕ, (i : Int) ≤ jMax - jMinOf m → Tridiag.minor a d b (jMinOf m) i ≠ 0 := by
  have hj : jMinOf m < jMax := by unfold jMinOf; split <;> omega
  intro i hi
  refine minor_ne a d b (jMinOf m) (n := (jMax - jMinOf m).toNat) (fun i hi => w.pivots h hns m0 rfl hmax (fun hm => ?_) i (by omega)) i (by omega)
  have := hcore hm
  rw [Glob.cell_eq] at this
  subst hm
  simpa [unit] using this

section Solve
variable {s : Sizes.Sizes} {ns nt : Int} {lfreeb : Bool} {R : Int → Ranges} {T : Int → Thread}

theorem team_range (hns : 3 ≤ ns) (hnt : 1 ≤ nt) (hT : Team nt ns lfreeb R) {t : Int} (ht : isThread nt t) : GoodR (R t) ns := by
  obtain ⟨_, e1, e2, e3, e4, e5, e6, _⟩ := team_facts (by omega) hnt hT ht
  have hn : 0 ≤ numSurfacesToDistribute ns lfreeb := by unfold numSurfacesToDistribute; split <;> omega
  have a := split_nonneg hn (show 0 < nt by omega) ht.1
  have b := split_le hn (show 0 < nt by omega) ht.2
  have hle : numSurfacesToDistribute ns lfreeb ≤ ns := by unfold numSurfacesToDistribute; split <;> omega
  exact ⟨e5, e6, e3, e4, by omega, by omega⟩

/-- after all threads have gathered -/
theorem gathered_mat (hns : 3 ≤ ns) (hnt : 1 ≤ nt) (hT : Team nt ns lfreeb R) (hr : ∀ t, isThread nt t → (T t).r = R t) (h : Shared) {mn : Int} (m0 : 0 ≤ mn)
    (m1 : mn < s.mnsize) {t j : Int} (ht : isThread nt t) (hj : owns (R t) j) (k : Arr) :
    (forRange 0 nt (fun t h => gather s ns (T t) h) h).mat k mn j = (T t).mat k ((j - (R t).nsMinF) * s.mnsize + mn) := by
  have un := (C01_radial_split nt ns lfreeb R (by omega) hnt hT).2.1
  refine (pickLoop (fun h : Shared => h.mat k mn j) _ (i0 := t) (fun _ => (T t).mat k ((j - (R t).nsMinF) * s.mnsize + mn)) ?_ ?_ h).trans (if_pos ht)
  · intro i h' i0 i1 hne
    have e := hr i ⟨i0, i1⟩
    refine (gather_mat (T i) h' k mn j m0 m1).trans (if_neg ?_)
    rw [e]
    exact fun ho => hne (un i t j ⟨i0, i1⟩ ht ho hj)
  · intro h' _ _
    refine (gather_mat (T t) h' k mn j m0 m1).trans ?_
    rw [hr t ht]
    exact if_pos hj

theorem gathered_rhs (hns : 3 ≤ ns) (hnt : 1 ≤ nt) (hT : Team nt ns lfreeb R) (hr : ∀ t, isThread nt t → (T t).r = R t) (h : Shared) {mn b : Int} (m0 : 0 ≤ mn)
    (m1 : mn < s.mnsize) (b0 : 0 ≤ b) (b1 : b < s.num_basis) {t j : Int} (ht : isThread nt t) (hj : owns (R t) j) (q : Side) :
    (forRange 0 nt (fun t h => gather s ns (T t) h) h).rhs q mn (b * ns + j) = (T t).f q b ((j - (R t).nsMinF) * s.mnsize + mn) := by
  have un := (C01_radial_split nt ns lfreeb R (by omega) hnt hT).2.1
  have rt := team_range hns hnt hT ht
  have hj' := hj
  unfold owns at hj'
  have := rt.min0
  have := rt.maxns
  refine (pickLoop (fun h : Shared => h.rhs q mn (b * ns + j)) _ (i0 := t) (fun _ => (T t).f q b ((j - (R t).nsMinF) * s.mnsize + mn)) ?_ ?_ h).trans (if_pos ht)
  · intro i h' i0 i1 hne
    have e := hr i ⟨i0, i1⟩
    have ri := team_range hns hnt hT (t := i) ⟨i0, i1⟩
    refine (gather_rhs (T i) h' q mn b j m0 m1 b0 b1 (by omega) (by omega) (by rw [e]; exact ri.min0) (by rw [e]; exact ri.maxns)).trans (if_neg ?_)
    rw [e]
    exact fun ho => hne (un i t j ⟨i0, i1⟩ ht ho hj)
  · intro h' _ _
    refine (gather_rhs (T t) h' q mn b j m0 m1 b0 b1 (by omega) (by omega) (by rw [hr t ht]; exact rt.min0) (by rw [hr t ht]; exact rt.maxns)).trans ?_
    rw [hr t ht]
    exact if_pos hj

end Solve

/-- **C81** (solution): threads that assemble the preconditioner from the same fields and apply it to the same force obtain the solution of the equations above on
every surface they own.  It is the only one; the axis is set to zero for `m > 0`; surfaces which are not evolved keep their force.  As no equation mentions the number
of threads, the result does not depend on it. -/
theorem C81_solution {lasym : Bool} {nfp mpol ntor ntheta nzeta mg ng : Int} {s : Sizes.Sizes} (hs : Sizes.mk lasym nfp mpol ntor ntheta nzeta mg ng = .ok s)
    (hm2 : 2 ≤ mpol) {ns nt : Int} {lfreeb : Bool} (vacuum : Bool) {R : Int → Ranges} (hns : 3 ≤ ns) (hnt : 1 ≤ nt) (hT : Team nt ns lfreeb R)
    {G : Glob} (hGs : G.s = s) (hGn : G.ns = ns) {S : Pair} (hphys : G.Phys S)
    (hcore : ∀ σ n, 0 ≤ n → n ≤ ntor → 0 < G.cell (S σ) 1 n (fun _ => 1) (unit 1) 0)
    {C : Int → PCtx} {x : Int → Side → Coord} (hC : ∀ t, isThread nt t → (C t).r = R t ∧ Holds (C t) G ∧ ∀ σ, HoldsX (C t) G (x t σ) (S σ))
    (oldE : Int → Side → Ent → Int → ℝ) (old : Int → Arr → Int → ℝ) (F : Side → Int → Int → Int → Int → ℝ)
    {T : Int → Thread} (hTh : ∀ t, isThread nt t → (T t).r = R t ∧
      (T t).mat = (C t).assemble lfreeb vacuum ((C t).computePreconditioningMatrix (x t .R) (oldE t .R)) ((C t).computePreconditioningMatrix (x t .Z) (oldE t .Z)) (old t) ∧
      ∀ σ b m n j, 0 ≤ b → b < s.num_basis → 0 ≤ m → m < mpol → 0 ≤ n → n ≤ ntor → owns (R t) j → (T t).f σ b ((C t).idx j m n) = F σ b m n j)
    (h : Shared) (σ : Side) {b m n : Int} (b0 : 0 ≤ b) (b1 : b < s.num_basis) (m0 : 0 ≤ m) (m1 : m < mpol) (n0 : 0 ≤ n) (n1 : n ≤ ntor) :
    ∃ X : Int → ℝ,
      (∀ t j, isThread nt t → owns (R t) j → (applyRZ s ns lfreeb vacuum nt T h t).f σ b ((C t).idx j m n) = X j) ∧
      (∀ j, jMinOf m ≤ j → j < jMaxOf ns lfreeb vacuum → G.lhs (S σ) σ m n (jMaxOf ns lfreeb vacuum) X j = F σ b m n j) ∧
      (∀ Y : Int → ℝ, (∀ j, jMinOf m ≤ j → j < jMaxOf ns lfreeb vacuum → G.lhs (S σ) σ m n (jMaxOf ns lfreeb vacuum) Y j = F σ b m n j) →
        ∀ j, jMinOf m ≤ j → j < jMaxOf ns lfreeb vacuum → Y j = X j) ∧
      (∀ j, 0 ≤ j → j < jMinOf m → X j = 0) ∧
      (∀ j, evolved ns lfreeb j → jMaxOf ns lfreeb vacuum ≤ j → X j = F σ b m n j) := by
  have hsz : s.mpol = mpol ∧ s.ntor = ntor ∧ s.mnsize = mpol * (ntor + 1) := by
    unfold Sizes.mk at hs
    split at hs
    · cases hs
    split at hs
    · cases hs
    split at hs
    · cases hs
    cases hs; exact ⟨rfl, rfl, rfl⟩
  obtain ⟨z1, z2, z3⟩ := hsz
  set jMax := jMaxOf ns lfreeb vacuum with hjM
  have hjMc : jMax = ns - 1 ∨ jMax = ns := jMaxOf_cases ns lfreeb vacuum
  have hmin01 : jMinOf m = 0 ∨ jMinOf m = 1 := by unfold jMinOf; split <;> simp
  obtain ⟨own, -, -⟩ := C01_radial_split nt ns lfreeb R (by omega) hnt hT
  have hev : ∀ j, 0 ≤ j → j < jMax → evolved ns lfreeb j := by
    intro j a1 a2
    refine ⟨a1, by omega, fun hl => ?_⟩
    rw [hjM, jMaxOf, hl] at a2
    simp only [Bool.false_and, Bool.false_eq_true, if_false] at a2
    omega
  set mn := m * (ntor + 1) + n with hmn
  have mn0 : 0 ≤ mn := by have := mul_nonneg m0 (show (0 : Int) ≤ ntor + 1 by omega); omega
  have mn1 : mn < s.mnsize := by
    rw [z3]
    have := mul_le_mul_of_nonneg_right (show m + 1 ≤ mpol by omega) (show (0 : Int) ≤ ntor + 1 by omega)
    have e : (m + 1) * (ntor + 1) = m * (ntor + 1) + (ntor + 1) := by ring
    omega
  have hdiv : mn.tdiv (s.ntor + 1) = m := by
    rw [z2, Int.tdiv_eq_ediv_of_nonneg mn0, hmn, add_comm (m * _) n, Int.add_mul_ediv_right _ _ (by omega), Int.ediv_eq_zero_of_lt n0 (by omega), zero_add]
  have hidx : ∀ t, isThread nt t → ∀ j, (C t).idx j m n = (j - (R t).nsMinF) * s.mnsize + mn := by
    intro t ht j
    obtain ⟨a1, a2, -⟩ := hC t ht
    unfold PCtx.idx
    rw [a1, a2.s, hGs, z1, z2, z3, hmn]
    ring
  have hr : ∀ t, isThread nt t → (T t).r = R t := fun t ht => (hTh t ht).1
  set H := forRange 0 nt (fun t h => gather s ns (T t) h) h with hH
  have rowsH : Rows G S σ m n (jMinOf m) jMax (H.mat σ.sup mn) (H.mat σ.diag mn) (H.mat σ.sub mn) := by
    have all : ∀ j, jMinOf m ≤ j → j < jMax → (j < ns - 1 → H.mat σ.sup mn j = -G.q (S σ) m n j) ∧ (0 < j → H.mat σ.sub mn j = -G.q (S σ) m n (j - 1)) ∧
        H.mat σ.diag mn j = -((if 0 < j then G.r (S σ) m n (j - 1) else 0) + (if j < ns - 1 then G.p (S σ) m n j else 0)
      + (if j = 1 ∧ m = 1 then G.q (S σ) m n 0 else 0)) * (if j = ns - 1 then edgeFactor G.deltaS σ.diag m n else 1) := by
      intro j a0 a1
      obtain ⟨t, ht, ho⟩ := (own j).1 (hev j (by omega) a1)
      obtain ⟨c1, c2, c3⟩ := hC t ht
      have hcn : (C t).ns = ns := c2.ns.trans hGn
      have hG := gathered_mat (s := s) hns hnt hT hr h mn0 mn1 ht ho
      have g := team_range hns hnt hT ht
      have hcs : (C t).s = s := c2.s.trans hGs
      have := assemble_eq c2 c3 (by rw [c1, hcn]; exact g) (by rw [hcs, z1]; exact hm2) (by rw [hcn]; exact hns) lfreeb vacuum (oldE t) (old t) (jF := j) (m := m)
        (n := n) (by rw [c1]; exact ho.1) (by rw [c1]; exact ho.2) a0 (by rw [hcn]; exact a1) m0 (by rw [hcs, z1]; exact m1) n0 (by rw [hcs, z2]; exact n1) σ
      simp only [] at this
      rw [← (hTh t ht).2.1, hcn, hidx t ht j, c2.deltaS] at this
      rw [hG, hG, hG]
      exact this
    exact ⟨fun j a0 a1 a2 => (all j a0 a1).1 (by omega), fun j a0 a1 a2 => (all j a0 a1).2.1 a2, fun j a0 a1 => by rw [hGn]; exact (all j a0 a1).2.2⟩
  have hrhs : ∀ j, evolved ns lfreeb j → H.rhs σ mn (b * ns + j) = F σ b m n j := by
    intro j hj
    obtain ⟨t, ht, ho⟩ := (own j).1 hj
    rw [hH, gathered_rhs (s := s) hns hnt hT hr h mn0 mn1 b0 b1 ht ho, ← hidx t ht j]
    exact (hTh t ht).2.2 σ b m n j b0 b1 m0 m1 n0 n1 ho
  have hmi := C81_definite rowsH hphys (by omega) m0 (by rw [hGn]; exact hjMc) (fun _ => hcore σ n n0 n1)
  obtain ⟨th, rest⟩ := Tridiag.C13_thomas ns (jMinOf m) jMax s.num_basis (by omega) (by omega) (by omega) (by omega)
    ⟨H.mat σ.sup mn, H.mat σ.diag mn, H.mat σ.sub mn, H.rhs σ mn⟩ hmi
  obtain ⟨t1, t2, t3⟩ := th b b0 b1
  have hrow : ∀ (Y : Int → ℝ) j, jMinOf m ≤ j → j < jMax → (Tridiag.rowHolds (H.mat σ.sup mn) (H.mat σ.diag mn) (H.mat σ.sub mn) (jMinOf m) jMax Y
      (fun j => H.rhs σ mn (b * ns + j)) j ↔ G.lhs (S σ) σ m n jMax Y j = F σ b m n j) := by
    intro Y j a0 a1
    unfold Tridiag.rowHolds
    simp only []
    rw [hrhs j (hev j (by omega) a1), row_form (by omega) (by rw [hGn]; exact hjMc) a0 a1 (rowsH.sup j a0 a1) (rowsH.sub j a0 a1) (rowsH.diag j a0 a1) Y]
  refine ⟨fun j => solved s ns jMax mn (H.view mn) σ (b * ns + j), ?_, ?_, ?_, ?_, ?_⟩
  · intro t j ht ho
    unfold applyRZ
    simp only []
    rw [hidx t ht j, ← hr t ht, redistribute_eq _ (T t) σ (by rw [hr t ht]; exact ho.1) (by rw [hr t ht]; exact ho.2) mn0 mn1 b0 b1,
      solveModes_eq hnt (by omega) mn0 mn1]
  · intro j a0 a1
    rw [← hrow _ j a0 a1]
    have := t1 j a0 a1
    unfold solved
    rw [hdiv]
    exact this
  · intro Y hY j a0 a1
    unfold solved
    rw [hdiv]
    exact t2 Y (fun j a0 a1 => (hrow Y j a0 a1).2 (hY j a0 a1)) j a0 a1
  · intro j a0 a1
    unfold solved
    rw [hdiv]
    exact t3 j a0 a1
  · intro j hj a1
    unfold solved
    rw [hdiv, ← hrhs j hj]
    exact rest b j hj.1 hj.2.1 (by omega)

/-- `num_basis` counts the arrays that the code collects -/
theorem C81_basis {lasym : Bool} {nfp mpol ntor ntheta nzeta mg ng : Int} {s : Sizes.Sizes} (hs : Sizes.mk lasym nfp mpol ntor ntheta nzeta mg ng = .ok s) :
    countBasis s = s.num_basis := by
  have h := ((Sizes.C07_sizes lasym nfp mpol ntor ntheta nzeta mg ng).2 s hs).2.2.2.2.1
  have h1 : s.lasym = lasym ∧ s.lthreed = decide (ntor > 0) := by
    unfold Sizes.mk at hs
    split at hs
    · cases hs
    split at hs
    · cases hs
    split at hs
    · cases hs
    cases hs; exact ⟨rfl, rfl⟩
  rw [h]
  unfold countBasis
  rw [h1.1, h1.2]
  by_cases h2 : ntor > 0 <;> cases lasym <;> simp [h2]

/-- **C81** (up-down shift): with an active vacuum the matrix for the shift of all surfaces in `Z` (`m = n = 0`) is not definite.  The reduced weight of the boundary makes
the quadratic form positive for the rigid shift, while it is negative for every other matrix of the family, as for a motion of the axis alone. -/
theorem C81_updown {G : Glob} {S : Pair} (h : G.Phys S) (hns : 3 ≤ G.ns) :
    0 < ∑ j ∈ Ico 0 G.ns, G.lhs (S .Z) .Z 0 0 G.ns (fun _ => 1) j * 1 ∧ G.lhs (S .Z) .Z 0 0 G.ns (unit 0) 0 < 0 := by
  have hd := h.deltaS
  have rigid : ∀ y, G.form (S .Z) 0 0 (active 0 (jMinOf 0) G.ns fun _ => 1) y = 0 := by
    intro y
    unfold Glob.form
    refine sum_eq_zero fun j hj => ?_
    rw [mem_Ico] at hj
    unfold Glob.cell
    refine sum_eq_zero fun kl _ => ?_
    have e1 : active 0 (jMinOf 0) G.ns (fun _ => 1) j = 1 := if_pos ⟨hj.1, by omega⟩
    have e2 : active 0 (jMinOf 0) G.ns (fun _ => 1) (j + 1) = 1 := if_pos ⟨by simp [jMinOf]; omega, by omega⟩
    simp [Glob.dRad, Glob.outer, Glob.inner, e1, e2]
  have hr : 0 < G.r (S .Z) 0 0 (G.ns - 1 - 1) := h.r_pos .Z 0 0 (by omega) (by omega)
  have hp : 0 < G.p (S .Z) 0 0 0 := h.p_pos .Z 0 0 (by norm_num) le_rfl (by omega)
  constructor
  · rw [sum_eq_single (G.ns - 1)]
    · unfold Glob.lhs
      rw [rigid, if_pos rfl, Glob.form_unit G _ _ _ _ (by omega) (by omega), if_neg (lt_irrefl _), if_pos (by omega)]
      have e : edgeShare G.deltaS .Z 0 0 = -min 0.25 (0.25 * G.deltaS * 15) := by simp [edgeShare]
      have hm : (0 : ℝ) < min 0.25 (0.25 * G.deltaS * 15) := lt_min (by norm_num) (by positivity)
      have u1 : unit (G.ns - 1) (G.ns - 1) = 1 := if_pos rfl
      have u2 : unit (G.ns - 1) (G.ns - 1 - 1) = 0 := if_neg (by omega)
      rw [e, u1, u2]
      have := mul_pos hm hr
      linarith
    · intro j _ hj
      unfold Glob.lhs
      rw [rigid, if_neg hj]
      ring
    · intro hj
      exact absurd (mem_Ico.2 ⟨by omega, by omega⟩) hj
  · unfold Glob.lhs
    rw [if_neg (show ¬ (0 = G.ns - 1) by omega), Glob.form_unit G _ _ _ _ le_rfl (by omega), if_pos (by omega), if_neg (lt_irrefl _)]
    have e1 : active 0 (jMinOf 0) G.ns (unit 0) 0 = 1 := by
      unfold active; rw [if_pos ⟨le_rfl, by omega⟩]; exact if_pos rfl
    have e2 : active 0 (jMinOf 0) G.ns (unit 0) (0 + 1) = 0 := by
      unfold active; rw [if_pos ⟨by simp [jMinOf], by omega⟩]; exact if_neg (by norm_num)
    rw [e1, e2]
    linarith

/-- C81: uniform fields on a grid of six surfaces and a team of two threads -/
example : ∃ (s : Sizes.Sizes) (R : Int → Ranges) (G : Glob) (S : Pair) (C : Int → PCtx) (x : Int → Side → Coord),
    Sizes.mk true 5 3 2 0 0 0 0 = .ok s ∧ Team 2 6 true R ∧ G.s = s ∧ G.ns = 6 ∧ G.Phys S ∧
    (∀ σ n, 0 < G.cell (S σ) 1 n (fun _ => 1) (unit 1) 0) ∧ (∀ t, isThread 2 t → (C t).r = R t ∧ Holds (C t) G ∧ ∀ σ, HoldsX (C t) G (x t σ) (S σ)) := by
  obtain ⟨s, hs⟩ : ∃ s, Sizes.mk true 5 3 2 0 0 0 0 = .ok s := ⟨_, rfl⟩
  have hs' : 1 ≤ s.nZeta ∧ 2 ≤ s.nThetaReduced ∧ 1 ≤ s.nThetaEven ∧ 0 < s.nZnT := by cases hs; decide
  obtain ⟨R, hR⟩ : ∃ R : Int → Ranges, Team 2 6 true R := by
    obtain ⟨r0, h0⟩ : ∃ r, adjustRadialPartitioning 2 0 6 true = .ok r := ⟨_, rfl⟩
    obtain ⟨r1, h1⟩ : ∃ r, adjustRadialPartitioning 2 1 6 true = .ok r := ⟨_, rfl⟩
    refine ⟨fun t => if t = 0 then r0 else r1, ?_⟩
    rintro t ⟨a, b⟩
    obtain rfl | rfl : t = 0 ∨ t = 1 := by omega
    · exact h0
    · exact h1
  let X : GCoord := ⟨fun _ _ => 0, fun _ _ => 1, fun _ _ => 0, fun _ _ => 1, fun _ _ => 0⟩
  let G : Glob := ⟨s, 6, 1, fun _ _ => 1, fun _ _ => 1, fun _ _ => -1, fun _ _ => 0, fun _ _ => -1, fun _ => 1, fun _ => 1, fun _ => 1⟩
  have hP : G.Phys (fun _ => X) := by
    refine ⟨fun _ _ _ _ _ _ => by norm_num [G], fun _ _ _ _ _ _ => by norm_num [G], fun _ _ _ _ _ _ => by norm_num [G], fun _ _ _ _ _ _ => by norm_num [G],
      ⟨hs'.1, hs'.2.1, hs'.2.2.1⟩, by norm_num [G], fun _ _ _ _ => ⟨0, le_rfl, hs'.2.2.2, by norm_num [X]⟩, fun _ j _ _ => ⟨0, le_rfl, hs'.2.2.2, ?_⟩⟩
    norm_num [Glob.dRad, Glob.outer, Glob.inner, G, X, unit]
  refine ⟨s, R, G, fun _ => X, fun t => ⟨s, 6, 1, R t, fun _ => 1, fun _ => 1, fun _ => -1, fun _ => 0, fun _ => -1, fun _ => 1, fun _ => 1, fun _ => 1⟩,
    fun _ _ => ⟨fun _ => 0, fun _ => 1, fun _ => 0, fun _ => 1, fun _ => 0⟩, hs, hR, rfl, rfl, hP, ?_, ?_⟩
  · intro _ n
    unfold Glob.cell
    refine sum_pos (fun kl _ => ?_) ⟨0, mem_Ico.2 ⟨le_rfl, hs'.2.2.2⟩⟩
    have hw := hP.wInt (kl.tmod G.s.nThetaEff)
    norm_num [Glob.dRad, Glob.dPol, Glob.outer, Glob.inner, Glob.W, Glob.Wn, G, X, unit] at hw ⊢
    exact hw
  · intro t ht
    exact ⟨rfl, ⟨rfl, rfl, rfl, fun _ _ _ _ _ _ => ⟨rfl, rfl, rfl, rfl, rfl⟩, fun _ _ _ => ⟨rfl, rfl, rfl⟩⟩, fun _ => ⟨fun _ _ _ _ _ _ => ⟨rfl, rfl⟩, fun _ _ _ _ _ _ => ⟨rfl, rfl, rfl⟩⟩⟩

end Verif.Radial
