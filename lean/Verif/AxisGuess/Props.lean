import Verif.AxisGuess.Search

/-!
# C44: the positions on the toroidal planes, and the transform
-/
namespace Verif.AxisGuess
open Verif Finset

/-! ## the positions on the toroidal planes -/

/-- the number `x` lies between two values of `f` on the poloidal grid -/
def InRange (n : Int) (f : Int → ℝ) (x : ℝ) : Prop :=
  (∃ l, 0 ≤ l ∧ l < n ∧ f l ≤ x) ∧ ∃ l, 0 ≤ l ∧ l < n ∧ x ≤ f l

theorem grid_between {lo hi : ℝ} (h : lo ≤ hi) (i : Int) (h0 : 0 ≤ i) (h1 : i ≤ 60) :
    lo ≤ lo + i * ((hi - lo) / 60) ∧ lo + i * ((hi - lo) / 60) ≤ hi := by
  have i0 : (0 : ℝ) ≤ i := by exact_mod_cast h0
  have i1 : (i : ℝ) ≤ 60 := by exact_mod_cast h1
  constructor
  · nlinarith
  · nlinarith

theorem search_inRange (p : Plane ℝ) (hn : 1 ≤ p.nThetaEven)
    (h0 : p.zeroZ = true → InRange p.nThetaEven p.z_lcfs 0) :
    InRange p.nThetaEven p.r_lcfs p.search.r ∧ InRange p.nThetaEven p.z_lcfs p.search.z := by
  obtain ⟨⟨l1, a1, b1, c1⟩, d1⟩ := minElement_spec p.nThetaEven hn p.r_lcfs
  obtain ⟨⟨l2, a2, b2, c2⟩, d2⟩ := maxElement_spec p.nThetaEven hn p.r_lcfs
  obtain ⟨⟨l3, a3, b3, c3⟩, d3⟩ := minElement_spec p.nThetaEven hn p.z_lcfs
  obtain ⟨⟨l4, a4, b4, c4⟩, d4⟩ := maxElement_spec p.nThetaEven hn p.z_lcfs
  have hr : p.min_r ≤ p.max_r := (d1 0 (by omega) (by omega)).trans (d2 0 (by omega) (by omega))
  have hz : p.min_z ≤ p.max_z := (d3 0 (by omega) (by omega)).trans (d4 0 (by omega) (by omega))
  have inR : ∀ x, p.min_r ≤ x → x ≤ p.max_r → InRange p.nThetaEven p.r_lcfs x := fun x hx hx' =>
    ⟨⟨l1, a1, b1, c1.symm.le.trans hx⟩, ⟨l2, a2, b2, hx'.trans c2.le⟩⟩
  have inZ : ∀ x, p.min_z ≤ x → x ≤ p.max_z → InRange p.nThetaEven p.z_lcfs x := fun x hx hx' =>
    ⟨⟨l3, a3, b3, c3.symm.le.trans hx⟩, ⟨l4, a4, b4, hx'.trans c4.le⟩⟩
  have ptR : ∀ x ∈ p.points, InRange p.nThetaEven p.r_lcfs x.1 := by
    rintro ⟨r, z⟩ hx
    obtain ⟨⟨i, h0, h1, e⟩, -⟩ := (mem_points p r z).1 hx
    dsimp only
    rw [e]
    exact inR _ (grid_between hr i h0 h1).1 (grid_between hr i h0 h1).2
  have ptZ : ∀ x ∈ p.points, InRange p.nThetaEven p.z_lcfs x.2 := by
    rintro ⟨r, z⟩ hx
    obtain ⟨-, h⟩ := (mem_points p r z).1 hx
    dsimp only
    by_cases hzz : p.zeroZ = true
    · rw [if_pos hzz] at h; rw [h]; exact h0 hzz
    · rw [if_neg hzz] at h
      obtain ⟨i, h0, h1, e⟩ := h
      rw [e]
      exact inZ _ (grid_between hz i h0 h1).1 (grid_between hz i h0 h1).2
  have sr : InRange p.nThetaEven p.r_lcfs p.start.r :=
    inR _ (by show _ ≤ (p.max_r + p.min_r) / 2; linarith) (by show (p.max_r + p.min_r) / 2 ≤ _; linarith)
  have sz : InRange p.nThetaEven p.z_lcfs p.start.z :=
    inZ _ (by show _ ≤ (p.max_z + p.min_z) / 2; linarith) (by show (p.max_z + p.min_z) / 2 ≤ _; linarith)
  rcases (inv_search p).pos with ⟨-, e1, e2⟩ | ⟨-, x, hx, y, hy, -, -, e1, e2⟩
  · rw [e1]
    refine ⟨sr, ?_⟩
    rcases e2 with e2 | ⟨x, hx, -, e2⟩
    · rw [e2]; exact sz
    · rw [e2]; exact ptZ x hx
  · rw [e1, e2]; exact ⟨ptR x hx, ptZ y hy⟩

/-- the boundary as given by the user: coefficients of `sin sin` and `sin cos` in R, `cos sin` and `cos cos` in Z.
    (Those of `cos cos`, `cos sin` in R and `sin cos`, `sin sin` in Z are stored as they are.) -/
structure Shape where
  rss : Int → Int → ℝ
  rsc : Int → Int → ℝ
  zcs : Int → Int → ℝ
  zcc : Int → Int → ℝ

/-- what is stored for the `m = 1` modes is half the sum and half the difference (`Boundaries::ensureM1Constrained`
    with factor 0.5, property C52) -/
structure Stored (a : In) (S : Shape) : Prop where
  rss : ∀ m n, a.rbss m n = if m = 1 then (S.rss m n + S.zcs m n) / 2 else S.rss m n
  zcs : ∀ m n, a.zbcs m n = if m = 1 then (S.rss m n - S.zcs m n) / 2 else S.zcs m n
  rsc : ∀ m n, a.rbsc m n = if m = 1 then (S.rsc m n + S.zcc m n) / 2 else S.rsc m n
  zcc : ∀ m n, a.zbcc m n = if m = 1 then (S.rsc m n - S.zcc m n) / 2 else S.zcc m n

theorem stored_eq {a : In} {S : Shape} (h : Stored a S) : a.rssB = S.rss ∧ a.zcsB = S.zcs ∧ a.rscB = S.rsc := by
  refine ⟨?_, ?_, ?_⟩ <;> funext m n
  · unfold In.rssB; rw [h.rss, h.zcs]; split
    · ring
    · rfl
  · unfold In.zcsB; rw [h.rss, h.zcs]; split
    · ring
    · rfl
  · unfold In.rscB; rw [h.rsc, h.zcc]; split
    · ring
    · rfl

/-- R of the boundary given by the user at the poloidal grid points of plane `k`, stellarator symmetric part -/
noncomputable def userR (a : In) (S : Shape) (k l : Int) : ℝ :=
  ∑ m ∈ Ico 0 a.s.mpol, ∑ n ∈ Ico 0 (a.s.ntor + 1),
    (a.rbcc m n * Real.cos (m * (2 * Real.pi * l / a.s.nThetaEven)) * Real.cos (n * (2 * Real.pi * k / a.s.nZeta)) +
     S.rss m n * Real.sin (m * (2 * Real.pi * l / a.s.nThetaEven)) * Real.sin (n * (2 * Real.pi * k / a.s.nZeta)))

/-- R of the boundary given by the user, asymmetric part -/
noncomputable def userRAsym (a : In) (S : Shape) (k l : Int) : ℝ :=
  ∑ m ∈ Ico 0 a.s.mpol, ∑ n ∈ Ico 0 (a.s.ntor + 1),
    (S.rsc m n * Real.sin (m * (2 * Real.pi * l / a.s.nThetaEven)) * Real.cos (n * (2 * Real.pi * k / a.s.nZeta)) +
     a.rbcs m n * Real.cos (m * (2 * Real.pi * l / a.s.nThetaEven)) * Real.sin (n * (2 * Real.pi * k / a.s.nZeta)))

/-- Z of the boundary given by the user -/
noncomputable def userZ (a : In) (S : Shape) (k l : Int) : ℝ :=
  ∑ m ∈ Ico 0 a.s.mpol, ∑ n ∈ Ico 0 (a.s.ntor + 1),
    (a.zbsc m n * Real.sin (m * (2 * Real.pi * l / a.s.nThetaEven)) * Real.cos (n * (2 * Real.pi * k / a.s.nZeta)) +
     S.zcs m n * Real.cos (m * (2 * Real.pi * l / a.s.nThetaEven)) * Real.sin (n * (2 * Real.pi * k / a.s.nZeta)))

/-- R of the boundary at the poloidal grid points of plane `k` -/
noncomputable def lcfsR (a : In) (k l : Int) : ℝ :=
  a.curveR (2 * Real.pi * l / a.s.nThetaEven) (2 * Real.pi * k / a.s.nZeta)

/-- Z of the boundary at the poloidal grid points of plane `k` -/
noncomputable def lcfsZ (a : In) (k l : Int) : ℝ :=
  a.curveZ (2 * Real.pi * l / a.s.nThetaEven) (2 * Real.pi * k / a.s.nZeta)

theorem user_eq {a : In} {S : Shape} (h : Stored a S) : lcfsR a = userR a S ∧ lcfsZ a = userZ a S ∧
    (fun k l : Int => a.curveRAsym (2 * Real.pi * l / a.s.nThetaEven) (2 * Real.pi * k / a.s.nZeta)) = userRAsym a S := by
  refine ⟨?_, ?_, ?_⟩ <;> funext k l
  · unfold lcfsR In.curveR userR; rw [(stored_eq h).1]
  · unfold lcfsZ In.curveZ userZ; rw [(stored_eq h).2.1]
  · unfold In.curveRAsym userRAsym; rw [(stored_eq h).2.2]

theorem positions_sym (a : In) (h : a.Code) (hs : a.s.lasym = false) : ∃ w', (∀ k l, (0 ≤ k ∧ k < a.s.nZeta) →
      (0 ≤ l ∧ l < a.s.nThetaEven) → w' (.r_lcfs, k, l) = lcfsR a k l ∧ w' (.z_lcfs, k, l) = lcfsZ a k l) ∧
    a.positions = .ok (fun k =>
      if a.s.nZeta - a.s.nZeta / 2 < k ∧ k < a.s.nZeta then
        ((a.found w' (a.s.nZeta - k)).1, -(a.found w' (a.s.nZeta - k)).2)
      else if 0 ≤ k ∧ k ≤ a.s.nZeta / 2 then a.found w' k else (0, 0)) := by
  obtain ⟨w, w', e, e', hw⟩ := geometry_sym a h hs
  refine ⟨w', hw, ?_⟩
  have hz := h.grid.nz
  unfold In.positions
  rw [e]
  simp only [Outcome.bind_ok]
  rw [e']
  simp only [Outcome.bind_ok]
  rw [mainLoop_spec a h.good]
  simp only [Outcome.bind_ok]
  rw [mirrorPos_spec a h.good hs]
  congr 1
  funext k
  by_cases hk : a.s.nZeta - a.s.nZeta / 2 < k ∧ k < a.s.nZeta
  · rw [if_pos hk, if_pos hk, if_pos (by omega)]
  · rw [if_neg hk, if_neg hk]

theorem every_plane (a : In) (L : Fourier.Layout) (hL : Fourier.IsLayout L)
    (lasym : Bool) (nfp mpol ntor ntheta nzeta mg ng : Int)
    (hsz : Sizes.mk lasym nfp mpol ntor ntheta nzeta mg ng = .ok a.s) (ht : a.t = codeBasis L a.s nfp)
    (hsym : a.s.lasym = false) (heven : a.s.nZeta % 2 = 0 ∨ a.s.nZeta = 1) :
    ∃ p, a.positions = .ok p ∧ ∀ k, 0 ≤ k → k < a.s.nZeta →
      InRange a.s.nThetaEven (lcfsR a k) (p k).1 ∧ InRange a.s.nThetaEven (lcfsZ a k) (p k).2 := by
  have h := code_of_mk a hL hsz ht
  obtain ⟨w', hw, e⟩ := positions_sym a h hsym
  have g := h.good
  have g1 := g.nZeta
  have g2 := g.even
  have g3 := g.theta
  have found : ∀ k, 0 ≤ k → k ≤ a.s.nZeta / 2 → InRange a.s.nThetaEven (lcfsR a k) (a.found w' k).1 ∧
      InRange a.s.nThetaEven (lcfsZ a k) (a.found w' k).2 := by
    intro k h0 h1
    have hk : 0 ≤ k ∧ k < a.s.nZeta := ⟨h0, by omega⟩
    have trans : ∀ (f f' : Int → ℝ) x, (∀ l, 0 ≤ l → l < a.s.nThetaEven → f l = f' l) →
        InRange a.s.nThetaEven f x → InRange a.s.nThetaEven f' x := by
      rintro f f' x hf ⟨⟨l1, p1, q1, r1⟩, ⟨l2, p2, q2, r2⟩⟩
      exact ⟨⟨l1, p1, q1, by rw [← hf l1 p1 q1]; exact r1⟩, ⟨l2, p2, q2, by rw [← hf l2 p2 q2]; exact r2⟩⟩
    have main := search_inRange (a.plane w' k) (by show 1 ≤ a.s.nThetaEven; omega) (by
      intro hz
      have hk' : k = 0 ∨ k = a.s.nZeta / 2 := by
        have : (!a.s.lasym && (decide (k = 0) || decide (k = a.s.nZeta.tdiv 2))) = true := hz
        rw [hsym, Int.tdiv_eq_ediv_of_nonneg (by omega)] at this
        simpa using this
      have e0 : lcfsZ a k 0 = 0 := by
        have hsin : ∀ n : Int, Real.sin (n * (2 * Real.pi * k / a.s.nZeta)) = 0 := by
          intro n
          rcases hk' with e | e
          · rw [e]; simp
          · rcases heven with e2 | e2
            · have : (2 : ℝ) * k = a.s.nZeta := by exact_mod_cast (show 2 * k = a.s.nZeta by omega)
              have hz : (a.s.nZeta : ℝ) ≠ 0 := by exact_mod_cast (show a.s.nZeta ≠ 0 by omega)
              rw [show (n : ℝ) * (2 * Real.pi * k / a.s.nZeta) = n * Real.pi * ((2 * k) / a.s.nZeta) by ring, this,
                div_self hz, mul_one]
              exact Real.sin_int_mul_pi n
            · have : k = 0 := by omega
              rw [this]; simp
        unfold lcfsZ In.curveZ
        refine Finset.sum_eq_zero fun m _ => Finset.sum_eq_zero fun n _ => ?_
        rw [hsin n]
        simp
      have e1 : (a.plane w' k).z_lcfs 0 = 0 := by
        show w' (.z_lcfs, k, 0) = 0
        rw [(hw k 0 hk ⟨by omega, by omega⟩).2, e0]
      exact ⟨⟨0, by omega, by show 0 < a.s.nThetaEven; omega, e1.le⟩,
        ⟨0, by omega, by show 0 < a.s.nThetaEven; omega, e1.symm.le⟩⟩)
    exact ⟨trans _ _ _ (fun l p q => (hw k l hk ⟨p, q⟩).1) main.1, trans _ _ _ (fun l p q => (hw k l hk ⟨p, q⟩).2) main.2⟩
  refine ⟨_, e, fun k h0 h1 => ?_⟩
  beta_reduce
  by_cases hm : a.s.nZeta - a.s.nZeta / 2 < k ∧ k < a.s.nZeta
  · rw [if_pos hm]
    obtain ⟨⟨⟨l1, p1, q1, r1⟩, ⟨l2, p2, q2, r2⟩⟩, ⟨l3, p3, q3, r3⟩, ⟨l4, p4, q4, r4⟩⟩ :=
      found (a.s.nZeta - k) (by omega) (by omega)
    have hzr : (a.s.nZeta : ℝ) ≠ 0 := by exact_mod_cast (show a.s.nZeta ≠ 0 by omega)
    have htr : (a.s.nThetaEven : ℝ) ≠ 0 := by exact_mod_cast (show a.s.nThetaEven ≠ 0 by omega)
    -- the point opposite to `l`
    have opp : ∀ l, 0 ≤ l → l < a.s.nThetaEven → ∃ l', 0 ≤ l' ∧ l' < a.s.nThetaEven ∧
        lcfsR a k l' = lcfsR a (a.s.nZeta - k) l ∧ lcfsZ a k l' = -lcfsZ a (a.s.nZeta - k) l := by
      intro l hl0 hl1
      have ez : (2 * Real.pi * k / a.s.nZeta : ℝ) =
          2 * Real.pi * ((1 : Int) : ℝ) - 2 * Real.pi * ((a.s.nZeta - k : Int) : ℝ) / a.s.nZeta := by
        push_cast; field_simp; ring
      by_cases e0 : l = 0
      · refine ⟨0, by omega, by omega, ?_, ?_⟩
        · unfold lcfsR
          have := curveR_refl a 0 1 0 (2 * Real.pi * ((a.s.nZeta - k : Int) : ℝ) / a.s.nZeta)
          rw [← ez] at this
          simpa [e0] using this
        · unfold lcfsZ
          have := curveZ_refl a 0 1 0 (2 * Real.pi * ((a.s.nZeta - k : Int) : ℝ) / a.s.nZeta)
          rw [← ez] at this
          simpa [e0] using this
      · have et : (2 * Real.pi * ((a.s.nThetaEven - l : Int) : ℝ) / a.s.nThetaEven : ℝ) =
            2 * Real.pi * ((1 : Int) : ℝ) - 2 * Real.pi * l / a.s.nThetaEven := by
          push_cast; field_simp
        refine ⟨a.s.nThetaEven - l, by omega, by omega, ?_, ?_⟩
        · unfold lcfsR; rw [ez, et, curveR_refl]
        · unfold lcfsZ; rw [ez, et, curveZ_refl]
    obtain ⟨m1, u1, v1, x1, -⟩ := opp l1 p1 q1
    obtain ⟨m2, u2, v2, x2, -⟩ := opp l2 p2 q2
    obtain ⟨m3, u3, v3, -, x3⟩ := opp l3 p3 q3
    obtain ⟨m4, u4, v4, -, x4⟩ := opp l4 p4 q4
    refine ⟨⟨⟨m1, u1, v1, by rw [x1]; exact r1⟩, ⟨m2, u2, v2, by rw [x2]; exact r2⟩⟩,
      ⟨m4, u4, v4, by rw [x4]; exact neg_le_neg r4⟩, ⟨m3, u3, v3, by rw [x3]; exact neg_le_neg r3⟩⟩
  · have hk : 0 ≤ k ∧ k ≤ a.s.nZeta / 2 := by omega
    rw [if_neg hm, if_pos hk]
    exact found k hk.1 hk.2

/-- **C44** (the planes, the part that holds) In a run with stellarator symmetry and an even number of toroidal planes
    (or one plane, as in axisymmetry) every plane gets a new axis position, and it lies inside the bounding box of
    the boundary's cross section in that plane.
    Missing: an odd number of planes above one (`C44_odd_plane_missing`) and asymmetric runs
    (`C44_asym_planes_missing`, `C44_asym_half_missing`), where the claim is false. -/
theorem C44_every_plane_partial (a : In) (S : Shape) (hS : Stored a S) (L : Fourier.Layout) (hL : Fourier.IsLayout L)
    (lasym : Bool) (nfp mpol ntor ntheta nzeta mg ng : Int)
    (hsz : Sizes.mk lasym nfp mpol ntor ntheta nzeta mg ng = .ok a.s) (ht : a.t = codeBasis L a.s nfp)
    (hsym : a.s.lasym = false) (heven : a.s.nZeta % 2 = 0 ∨ a.s.nZeta = 1) :
    ∃ p, a.positions = .ok p ∧ ∀ k, 0 ≤ k → k < a.s.nZeta →
      InRange a.s.nThetaEven (userR a S k) (p k).1 ∧ InRange a.s.nThetaEven (userZ a S k) (p k).2 := by
  rw [← (user_eq hS).1, ← (user_eq hS).2.1]
  exact every_plane a L hL lasym nfp mpol ntor ntheta nzeta mg ng hsz ht hsym heven

/-- **C44** (negation, odd number of planes) With stellarator symmetry and an odd number of planes above one, the plane
    `nZeta / 2 + 1` gets no position from the search: both coordinates stay zero, whatever the boundary. -/
theorem C44_odd_plane_missing (a : In) (h : a.Code) (hsym : a.s.lasym = false) (hodd : a.s.nZeta % 2 = 1)
    (h3 : 3 ≤ a.s.nZeta) : ∃ p k, a.positions = .ok p ∧ (0 ≤ k ∧ k < a.s.nZeta) ∧ p k = (0, 0) := by
  obtain ⟨w', -, e⟩ := positions_sym a h hsym
  refine ⟨_, a.s.nZeta / 2 + 1, e, ⟨by omega, by omega⟩, ?_⟩
  beta_reduce
  rw [if_neg (by omega), if_neg (by omega)]

theorem positions_asym (a : In) (h : a.Good) (hs : a.s.lasym = true) : ∃ w, (∀ g k l, (0 ≤ k ∧ k < a.s.nZeta) →
      (0 ≤ l ∧ l < a.s.nThetaReduced) → w (g, k, l) = a.point g k l) ∧
    (∀ g k l, ¬ (0 ≤ l ∧ l < a.s.nThetaReduced) → w (g, k, l) = 0) ∧
    a.positions = .ok (fun k => if 0 ≤ k ∧ k ≤ a.s.nZeta / 2 then a.found w k else (0, 0)) := by
  obtain ⟨w, e, e1, e2⟩ := synthesis_spec a h
  refine ⟨w, e1, e2, ?_⟩
  unfold In.positions In.mirror In.mirrorPos
  rw [e]
  simp only [Outcome.bind_ok, hs, if_true]
  rw [mainLoop_spec a h]
  simp only [Outcome.bind_ok]

/-- **C44** (negation, asymmetric runs) Without stellarator symmetry no plane above `nZeta / 2` gets a position. -/
theorem C44_asym_planes_missing (a : In) (h : a.Code) (hasym : a.s.lasym = true) :
    ∃ p, a.positions = .ok p ∧ ∀ k, a.s.nZeta / 2 < k → k < a.s.nZeta → p k = (0, 0) := by
  obtain ⟨w, -, -, e⟩ := positions_asym a h.good hasym
  refine ⟨_, e, fun k h1 h2 => ?_⟩
  beta_reduce
  rw [if_neg (by omega)]

theorem asym_half (a : In) (h : a.Code) (hasym : a.s.lasym = true) (k : Int) (h0 : 0 ≤ k)
    (h1 : k ≤ a.s.nZeta / 2)
    (hpos : ∀ l, 0 ≤ l → l < a.s.nThetaReduced →
      0 < lcfsR a k l + a.curveRAsym (2 * Real.pi * l / a.s.nThetaEven) (2 * Real.pi * k / a.s.nZeta)) :
    ∃ p l, a.positions = .ok p ∧ (0 ≤ l ∧ l < a.s.nThetaReduced) ∧
      (p k).1 = (lcfsR a k l + a.curveRAsym (2 * Real.pi * l / a.s.nThetaEven) (2 * Real.pi * k / a.s.nZeta)) / 2 ∧
      ∀ l', 0 ≤ l' → l' < a.s.nThetaReduced →
        lcfsR a k l' + a.curveRAsym (2 * Real.pi * l' / a.s.nThetaEven) (2 * Real.pi * k / a.s.nZeta) ≤
        lcfsR a k l + a.curveRAsym (2 * Real.pi * l / a.s.nThetaEven) (2 * Real.pi * k / a.s.nZeta) := by
  have g := h.good
  have g1 := g.nZeta
  have g2 := g.even
  have g3 := g.theta
  obtain ⟨w, e1, e2, e⟩ := positions_asym a g hasym
  have hk : 0 ≤ k ∧ k < a.s.nZeta := ⟨h0, by omega⟩
  have er : ∀ l, 0 ≤ l → l < a.s.nThetaReduced → (a.plane w k).r_lcfs l =
      lcfsR a k l + a.curveRAsym (2 * Real.pi * l / a.s.nThetaEven) (2 * Real.pi * k / a.s.nZeta) := by
    intro l hl0 hl1
    show w (.r_lcfs, k, l) = _
    rw [e1 _ k l hk ⟨hl0, hl1⟩, point_r a h k l hk ⟨hl0, hl1⟩, hasym]
    rfl
  have ez : ∀ g' l, a.s.nThetaReduced ≤ l → w (g', k, l) = 0 := fun g' l hl => e2 g' k l (by omega)
  have hn : 1 ≤ (a.plane w k).nThetaEven := by show 1 ≤ a.s.nThetaEven; omega
  have hno : (a.plane w k).search.r = ((a.plane w k).max_r + (a.plane w k).min_r) / 2 := by
    refine C44_search_fails _ hn ?_
    intro r z t _ ht
    refine (ht.2 a.s.nThetaReduced (by omega) (by show a.s.nThetaReduced < a.s.nThetaEven; omega)).trans_eq ?_
    unfold jac In.plane
    dsimp only
    rw [ez .dr_half _ le_rfl, ez .dz_half _ le_rfl]
    ring
  obtain ⟨⟨l1, a1, b1, c1⟩, d1⟩ := minElement_spec _ hn (a.plane w k).r_lcfs
  obtain ⟨⟨l2, a2, b2, c2⟩, d2⟩ := maxElement_spec _ hn (a.plane w k).r_lcfs
  have hz0 : (a.plane w k).r_lcfs a.s.nThetaReduced = 0 := ez .r_lcfs _ le_rfl
  have hmin : (a.plane w k).min_r = 0 := by
    refine le_antisymm ((d1 a.s.nThetaReduced (by omega)
      (by show a.s.nThetaReduced < a.s.nThetaEven; omega)).trans_eq hz0) ?_
    show 0 ≤ minElement _ _
    rw [c1]
    by_cases hl : l1 < a.s.nThetaReduced
    · rw [er l1 a1 hl]; exact (hpos l1 a1 hl).le
    · exact (ez .r_lcfs l1 (by omega)).symm.le
  have hl2 : l2 < a.s.nThetaReduced := by
    by_contra hl
    have x1 : (a.plane w k).r_lcfs l2 = 0 := ez .r_lcfs l2 (by omega)
    have x2 := d2 0 le_rfl (by show 0 < a.s.nThetaEven; omega)
    rw [c2, x1, er 0 le_rfl (by omega)] at x2
    exact absurd (hpos 0 le_rfl (by omega)) (not_lt.2 x2)
  refine ⟨_, l2, e, ⟨a2, hl2⟩, ?_, ?_⟩
  · beta_reduce
    rw [if_pos ⟨h0, h1⟩]
    show (a.plane w k).search.r = _
    rw [hno, hmin, ← er l2 a2 hl2, add_zero]
    show maxElement _ _ / 2 = _
    rw [c2]
  · intro l' p q
    rw [← er l' p q, ← er l2 a2 hl2, ← c2]
    exact d2 l' p (by show l' < a.s.nThetaEven; omega)

/-- **C44** (negation, asymmetric runs) Without stellarator symmetry the poloidal points beyond `nThetaReduced` stay
    zero, so no grid point ever improves the Jacobian, and the planes that are searched get half the largest R
    of the computed half of the boundary (if R is positive there), for every boundary and either sign of the
    Jacobian. -/
theorem C44_asym_half_missing (a : In) (S : Shape) (hS : Stored a S) (h : a.Code) (hasym : a.s.lasym = true) (k : Int)
    (h0 : 0 ≤ k) (h1 : k ≤ a.s.nZeta / 2)
    (hpos : ∀ l, 0 ≤ l → l < a.s.nThetaReduced → 0 < userR a S k l + userRAsym a S k l) :
    ∃ p l, a.positions = .ok p ∧ (0 ≤ l ∧ l < a.s.nThetaReduced) ∧
      (p k).1 = (userR a S k l + userRAsym a S k l) / 2 ∧
      ∀ l', 0 ≤ l' → l' < a.s.nThetaReduced →
        userR a S k l' + userRAsym a S k l' ≤ userR a S k l + userRAsym a S k l := by
  rw [← (user_eq hS).1, ← (user_eq hS).2.2] at hpos ⊢
  exact asym_half a h hasym k h0 h1 hpos

/-! ## the transform -/

section
variable (a : In) (h : a.Code)
include h

/-- analysis with a cosine of samples of a band-limited curve -/
theorem analyse_cos (sg : ℝ) (c d : Int → ℝ) (x : Int → ℝ)
    (hx : ∀ k, 0 ≤ k → k < a.s.nZeta → x k = ∑ n ∈ Ico 0 (a.s.ntor + 1),
      (c n * Real.cos (n * (2 * Real.pi * k / a.s.nZeta)) - d n * Real.sin (n * (2 * Real.pi * k / a.s.nZeta))))
    (n : Int) (h0 : 0 ≤ n) (h1 : n ≤ a.s.ntor) :
    a.analyse sg a.t.cosnv x n = sg * (if n = 0 then 2 * c n else c n) ∧
    (1 ≤ n → a.analyse sg a.t.sinnv x n = sg * -d n) := by
  obtain ⟨L, nfp, hL, ht⟩ := h.table
  have g := h.grid
  have hn2 := g.n2
  have hz : (a.s.nZeta : ℝ) ≠ 0 := by
    have := g.nz
    exact_mod_cast (show a.s.nZeta ≠ 0 by omega)
  have e2 : ∀ n, 0 ≤ n → n ≤ a.s.ntor → a.t.nscale n = Fourier.scale n := by
    intro n h0 h1; rw [ht]; exact Fourier.fillScale_eq _ _ h0 (by omega)
  have e3 : ∀ n k, 0 ≤ n → n ≤ a.s.ntor → 0 ≤ k → k < a.s.nZeta →
      a.t.cosnv n k = (Fourier.torEntry a.s Fourier.scale nfp n k).cosnv ∧
      a.t.sinnv n k = (Fourier.torEntry a.s Fourier.scale nfp n k).sinnv := by
    intro n k h0 h1 h2 h3
    rw [ht]
    have et := Fourier.tor_eq L hL a.s nfp n k h0 (by omega) h2 h3
    exact ⟨by show (Fourier.tor L a.s nfp n k).cosnv = _; rw [et],
      by show (Fourier.tor L a.s nfp n k).sinnv = _; rw [et]⟩
  have ex : ∀ k, 0 ≤ k → k < a.s.nZeta → x k = ∑ n' ∈ Ico 0 (a.s.ntor + 1),
      (c n' / Fourier.scale n' * (Fourier.torEntry a.s Fourier.scale nfp n' k).cosnv -
       d n' / Fourier.scale n' * (Fourier.torEntry a.s Fourier.scale nfp n' k).sinnv) := by
    intro k h2 h3
    rw [hx k h2 h3]
    refine Finset.sum_congr rfl fun n' _ => ?_
    have := scale_ne n'
    simp only [Fourier.torEntry]
    field_simp
  have gen : ∀ T : Int → Int → ℝ, ∀ T' : Int → ℝ,
      (∀ k, 0 ≤ k → k < a.s.nZeta → T n k = T' k) →
      a.analyse sg T x n = sg * (2 / (a.s.nZeta : ℝ) / Fourier.scale n * ∑ n' ∈ Ico 0 (a.s.ntor + 1),
        (c n' / Fourier.scale n' * (∑ k ∈ Ico 0 a.s.nZeta,
            T' k * (Fourier.torEntry a.s Fourier.scale nfp n' k).cosnv) -
         d n' / Fourier.scale n' * (∑ k ∈ Ico 0 a.s.nZeta,
            T' k * (Fourier.torEntry a.s Fourier.scale nfp n' k).sinnv))) := by
    intro T T' hT
    unfold In.analyse
    rw [forRange_add, zero_add, ← Finset.mul_sum]
    congr 1
    have : ∀ k ∈ Ico 0 a.s.nZeta, 2 / (a.s.nZeta : ℝ) * T n k * x k / a.t.nscale n =
        2 / (a.s.nZeta : ℝ) / Fourier.scale n * ∑ n' ∈ Ico 0 (a.s.ntor + 1),
          (c n' / Fourier.scale n' * (T' k * (Fourier.torEntry a.s Fourier.scale nfp n' k).cosnv) -
           d n' / Fourier.scale n' * (T' k * (Fourier.torEntry a.s Fourier.scale nfp n' k).sinnv)) := by
      intro k hk
      rw [Finset.mem_Ico] at hk
      rw [hT k hk.1 hk.2, e2 n h0 h1, ex k hk.1 hk.2]
      have : ∑ n' ∈ Ico 0 (a.s.ntor + 1),
          (c n' / Fourier.scale n' * (T' k * (Fourier.torEntry a.s Fourier.scale nfp n' k).cosnv) -
           d n' / Fourier.scale n' * (T' k * (Fourier.torEntry a.s Fourier.scale nfp n' k).sinnv)) =
          T' k * ∑ n' ∈ Ico 0 (a.s.ntor + 1),
            (c n' / Fourier.scale n' * (Fourier.torEntry a.s Fourier.scale nfp n' k).cosnv -
             d n' / Fourier.scale n' * (Fourier.torEntry a.s Fourier.scale nfp n' k).sinnv) := by
        rw [Finset.mul_sum]
        exact Finset.sum_congr rfl fun _ _ => by ring
      rw [this]
      ring
    rw [Finset.sum_congr rfl this, ← Finset.mul_sum, Finset.sum_comm]
    congr 1
    refine Finset.sum_congr rfl fun n' _ => ?_
    rw [Finset.sum_sub_distrib, ← Finset.mul_sum, ← Finset.mul_sum]
  have hn := scale_ne n
  constructor
  · rw [gen a.t.cosnv _ (fun k h2 h3 => (e3 n k h0 h1 h2 h3).1)]
    congr 1
    rw [Finset.sum_eq_single n]
    · have x1 := Fourier.tor_cc g h0 h1 h0 h1 nfp
      have x2 := Fourier.tor_sc (n := n) (n' := n) g nfp
      rw [if_pos rfl] at x1
      rw [x1, show ∑ k ∈ Ico 0 a.s.nZeta, (Fourier.torEntry a.s Fourier.scale nfp n k).cosnv *
        (Fourier.torEntry a.s Fourier.scale nfp n k).sinnv = 0 by
          rw [← x2]; exact Finset.sum_congr rfl fun _ _ => mul_comm _ _]
      by_cases e : n = 0
      · rw [if_pos e, e, Fourier.scale_zero]; field_simp; ring
      · rw [if_neg e]
        have := Fourier.scale_sq e
        rw [mul_zero, sub_zero, show 2 / (a.s.nZeta : ℝ) / Fourier.scale n * (c n / Fourier.scale n * a.s.nZeta) =
          c n * (2 / (Fourier.scale n * Fourier.scale n)) by field_simp, this]
        ring
    · intro n' hn' hne
      rw [Finset.mem_Ico] at hn'
      have x1 := Fourier.tor_cc g h0 h1 hn'.1 (by omega) nfp
      have x2 := Fourier.tor_sc (n := n') (n' := n) g nfp
      rw [if_neg (Ne.symm hne)] at x1
      rw [x1, show ∑ k ∈ Ico 0 a.s.nZeta, (Fourier.torEntry a.s Fourier.scale nfp n k).cosnv *
        (Fourier.torEntry a.s Fourier.scale nfp n' k).sinnv = 0 by
          rw [← x2]; exact Finset.sum_congr rfl fun _ _ => mul_comm _ _]
      ring
    · intro hne
      exact absurd (Finset.mem_Ico.2 ⟨h0, by omega⟩) hne
  · intro h1n
    rw [gen a.t.sinnv _ (fun k h2 h3 => (e3 n k h0 h1 h2 h3).2)]
    congr 1
    rw [Finset.sum_eq_single n]
    · have x1 := Fourier.tor_ss g h0 h1 h0 h1 nfp
      have x2 := Fourier.tor_sc (n := n) (n' := n) g nfp
      rw [if_pos ⟨rfl, by omega⟩] at x1
      rw [x1, x2]
      have := Fourier.scale_sq (show n ≠ 0 by omega)
      rw [mul_zero, zero_sub, show 2 / (a.s.nZeta : ℝ) / Fourier.scale n * -(d n / Fourier.scale n * a.s.nZeta) =
        -d n * (2 / (Fourier.scale n * Fourier.scale n)) by field_simp, this]
      ring
    · intro n' hn' hne
      rw [Finset.mem_Ico] at hn'
      have x1 := Fourier.tor_ss g h0 h1 hn'.1 (by omega) nfp
      have x2 := Fourier.tor_sc (n := n) (n' := n') g nfp
      rw [if_neg (fun e => hne e.1.symm)] at x1
      rw [x1, x2]
      ring
    · intro hne
      exact absurd (Finset.mem_Ico.2 ⟨h0, by omega⟩) hne

theorem fixup_eq (x : Int → ℝ) (n : Int) (h1 : n ≤ a.s.ntor) :
    a.fixup x n = if n = 0 then x 0 / 2 else x n := by
  have g := h.grid.nyqT
  have g2 := h.grid.nz
  have g3 := h.grid.ntor
  have g4 := h.nyq
  unfold In.fixup
  rw [Int.tdiv_eq_ediv_of_nonneg (by omega)]
  rw [if_neg (by omega)]
  by_cases e : n = 0
  · subst e; rw [upd_same, if_pos rfl]
  · rw [upd_ne _ _ e, if_neg e]

end

/-- **C44** (transform) If the positions are those of a closed curve with toroidal mode numbers up to `ntor`, the
    coefficients that are written back are exactly those of the curve, so evaluating them on the grid gives the
    positions found. -/
theorem C44_transform (a : In) (L : Fourier.Layout) (hL : Fourier.IsLayout L)
    (lasym : Bool) (nfp mpol ntor ntheta nzeta mg ng : Int)
    (hsz : Sizes.mk lasym nfp mpol ntor ntheta nzeta mg ng = .ok a.s) (ht : a.t = codeBasis L a.s nfp)
    (rc rs zc zs : Int → ℝ) (p : Pos)
    (hp : ∀ k, 0 ≤ k → k < a.s.nZeta → p k =
      (∑ n ∈ Ico 0 (ntor + 1), (rc n * Real.cos (n * (2 * Real.pi * k / a.s.nZeta)) -
          rs n * Real.sin (n * (2 * Real.pi * k / a.s.nZeta))),
       ∑ n ∈ Ico 0 (ntor + 1), (zc n * Real.cos (n * (2 * Real.pi * k / a.s.nZeta)) -
          zs n * Real.sin (n * (2 * Real.pi * k / a.s.nZeta))))) :
    ∀ n, 0 ≤ n → n ≤ ntor → (a.transform p).raxis_c n = rc n ∧ (1 ≤ n → (a.transform p).zaxis_s n = zs n) ∧
      (a.s.lasym = true → (a.transform p).zaxis_c n = zc n ∧ (1 ≤ n → (a.transform p).raxis_s n = rs n)) := by
  have h := code_of_mk a hL hsz ht
  have hnt : a.s.ntor = ntor := ((Sizes.C07_sizes lasym nfp mpol ntor ntheta nzeta mg ng).2 a.s hsz).1.2.2.2
  subst hnt
  intro n h0 h1
  have er := fun sg => analyse_cos a h sg rc rs (fun k => (p k).1) (fun k h2 h3 => by
    beta_reduce; rw [hp k h2 h3]) n h0 h1
  have ez := fun sg => analyse_cos a h sg zc zs (fun k => (p k).2) (fun k h2 h3 => by
    beta_reduce; rw [hp k h2 h3]) n h0 h1
  have half : ∀ (x c : Int → ℝ), (x n = 1 * (if n = 0 then 2 * c n else c n)) → a.fixup x n = c n := by
    intro x c hx
    rw [fixup_eq a h x n h1]
    by_cases e : n = 0
    · subst e; rw [if_pos rfl] at hx ⊢; rw [hx]; ring
    · rw [if_neg e] at hx ⊢; rw [hx, one_mul]
  refine ⟨half _ rc (er 1).1, fun h => ?_, fun hl => ⟨?_, fun h => ?_⟩⟩
  · show a.analyse (-1) a.t.sinnv _ n = _
    rw [(ez (-1)).2 h]; ring
  · show (if a.s.lasym then a.fixup (a.analyse 1 a.t.cosnv fun k => (p k).2) else a.zaxis_c) n = _
    rw [if_pos hl]
    exact half _ zc (ez 1).1
  · show (if a.s.lasym then a.analyse (-1) a.t.sinnv (fun k => (p k).1) else a.raxis_s) n = _
    rw [if_pos hl, (er (-1)).2 h]; ring

/-! ## cases that meet the hypotheses -/

/-- an axisymmetric torus with a round cross section: R = 10 + cos θ, Z = sin θ -/
noncomputable def torus (s : Sizes.Sizes) : In where
  s := s
  t := codeBasis Fourier.fastPoloidal s 1
  ns := 5
  sign_of_jacobian := -1
  rbcc := fun m n => if n = 0 then (if m = 0 then 10 else if m = 1 then 1 else 0) else 0
  rbss := fun _ _ => 0
  rbsc := fun _ _ => 0
  rbcs := fun _ _ => 0
  zbsc := fun m n => if n = 0 ∧ m = 1 then 1 else 0
  zbcs := fun _ _ => 0
  zbcc := fun _ _ => 0
  zbss := fun _ _ => 0
  raxis_c := fun n => if n = 0 then 10 else 0
  raxis_s := fun _ => 0
  zaxis_s := fun _ => 0
  zaxis_c := fun _ => 0

theorem torus_stored (s : Sizes.Sizes) : Stored (torus s) ⟨fun _ _ => 0, fun _ _ => 0, fun _ _ => 0, fun _ _ => 0⟩ := by
  constructor <;> intro m n <;> simp [torus]

theorem torus_code {s : Sizes.Sizes} {lasym : Bool} {mpol ntor ntheta nzeta mg ng : Int}
    (hs : Sizes.mk lasym 1 mpol ntor ntheta nzeta mg ng = .ok s) : (torus s).Code :=
  code_of_mk _ (Or.inl rfl) hs rfl

/-- a run with 4 planes, in which all four get a position -/
example : ∃ s, Sizes.mk false 1 3 0 0 4 0 0 = .ok s ∧ s.nZeta = 4 ∧ ∃ p, (torus s).positions = .ok p ∧
    ∀ k, 0 ≤ k → k < 4 → InRange s.nThetaEven (userR (torus s) ⟨fun _ _ => 0, fun _ _ => 0, fun _ _ => 0, fun _ _ => 0⟩ k)
      (p k).1 := by
  refine ⟨_, rfl, rfl, ?_⟩
  obtain ⟨p, e, h⟩ := C44_every_plane_partial (torus _) _ (torus_stored _) Fourier.fastPoloidal (Or.inl rfl) false 1 3 0 0 4 0 0 rfl rfl
    rfl (Or.inl rfl)
  exact ⟨p, e, fun k h0 h1 => (h k h0 h1).1⟩

/-- a run with 5 planes, in which one gets none -/
example (s : Sizes.Sizes) (hs : Sizes.mk false 1 3 0 0 5 0 0 = .ok s) : ∃ p k, (torus s).positions = .ok p ∧
    (0 ≤ k ∧ k < s.nZeta) ∧ p k = (0, 0) := by
  have h := torus_code hs
  injection hs with hs
  subst hs
  exact C44_odd_plane_missing _ h rfl rfl (by decide)

/-- an asymmetric run with 5 planes -/
example (s : Sizes.Sizes) (hs : Sizes.mk true 1 3 0 0 5 0 0 = .ok s) : ∃ p, (torus s).positions = .ok p ∧
    p 4 = (0, 0) := by
  have h := torus_code hs
  injection hs with hs
  subst hs
  obtain ⟨p, e, h⟩ := C44_asym_planes_missing _ h rfl
  exact ⟨p, e, h 4 (by decide) (by decide)⟩

theorem torus_curve {s : Sizes.Sizes} (h1 : s.mpol = 3) (h2 : s.ntor = 0) (θ ζ : ℝ) :
    (torus s).curveR θ ζ = 10 + Real.cos θ ∧ (torus s).curveRAsym θ ζ = 0 := by
  have e : Ico (0 : Int) 3 = {0, 1, 2} := by decide
  have e' : Ico (0 : Int) (0 + 1) = {0} := by decide
  unfold In.curveR In.curveRAsym
  rw [show (torus s).s.mpol = 3 from h1, show (torus s).s.ntor = 0 from h2, e, e']
  simp [torus, In.rssB, In.rscB]

/-- an asymmetric run: the torus around R = 10 gets its axis at R = 5.5 -/
example (s : Sizes.Sizes) (hs : Sizes.mk true 1 3 0 0 1 0 0 = .ok s) : ∃ p, (torus s).positions = .ok p ∧
    (p 0).1 = 11 / 2 := by
  have hc := torus_code hs
  have e1 : s.mpol = 3 ∧ s.ntor = 0 ∧ s.lasym = true := by injection hs with hs; subst hs; exact ⟨rfl, rfl, rfl⟩
  have hS := torus_stored s
  have hv : ∀ k l : Int, userR (torus s) ⟨fun _ _ => 0, fun _ _ => 0, fun _ _ => 0, fun _ _ => 0⟩ k l +
      userRAsym (torus s) ⟨fun _ _ => 0, fun _ _ => 0, fun _ _ => 0, fun _ _ => 0⟩ k l =
      10 + Real.cos (2 * Real.pi * l / (torus s).s.nThetaEven) := fun k l => by
    rw [← (user_eq hS).1, ← (user_eq hS).2.2]
    unfold lcfsR
    beta_reduce
    rw [(torus_curve e1.1 e1.2.1 _ _).1, (torus_curve e1.1 e1.2.1 _ _).2, add_zero]
  have hz := hc.good.nZeta
  have ht := hc.good.theta
  obtain ⟨p, l, e, hl, h1, h2⟩ := C44_asym_half_missing _ _ hS hc e1.2.2 0 le_rfl (by omega) (fun l _ _ => by
    rw [hv]
    have := Real.neg_one_le_cos (2 * Real.pi * l / (torus s).s.nThetaEven)
    linarith)
  refine ⟨p, e, ?_⟩
  have h3 := h2 0 le_rfl (by omega)
  rw [hv, hv] at h3
  rw [hv] at h1
  rw [h1]
  have h4 := Real.cos_le_one (2 * Real.pi * l / (torus s).s.nThetaEven)
  have h5 : Real.cos (2 * Real.pi * ((0 : Int) : ℝ) / (torus s).s.nThetaEven) = 1 := by simp
  linarith

/-- the axis R = 10 + 2 cos ζ, Z = -3 sin ζ -/
example (s : Sizes.Sizes) (hs : Sizes.mk false 1 3 1 0 0 0 0 = .ok s) :
    ((torus s).transform fun k => (10 + 2 * Real.cos (2 * Real.pi * k / s.nZeta),
      -(3 * Real.sin (2 * Real.pi * k / s.nZeta)))).zaxis_s 1 = 3 := by
  have := C44_transform (torus s) Fourier.fastPoloidal (Or.inl rfl) false 1 3 1 0 0 0 0 hs rfl
    (fun n => if n = 0 then 10 else 2) (fun _ => 0) (fun _ => 0) (fun n => if n = 0 then 0 else 3)
    (fun k => (10 + 2 * Real.cos (2 * Real.pi * k / s.nZeta), -(3 * Real.sin (2 * Real.pi * k / s.nZeta))))
    (fun k _ _ => by
      have e' : Ico (0 : Int) (1 + 1) = {0, 1} := by decide
      rw [e']
      simp [torus])
  simpa using ((this 1 (by decide) (by decide)).2.1 le_rfl)

end Verif.AxisGuess
