import Verif.Boundary.Lemmas

/-!
# C26, C27, C28 (boundary part)
-/
namespace Verif.Boundary
open Verif Finset

/-! ## C26 -/

/-- The internal arrays describe the user's surface, with the poloidal angle counted from `delta`,
    at all angles; `delta = 0` for symmetric input. -/
theorem C26_surface (s : Size) (id : Indata) :
    ∃ d : ℝ, (s.lasym = false → d = 0) ∧ ∀ θ ζ,
      intR s (parseToInternalArrays s id) θ ζ = userR s id (θ + d) ζ ∧
      intZ s (parseToInternalArrays s id) θ ζ = userZ s id (θ + d) ζ := by
  refine ⟨delta s id, delta_sym s id, fun θ ζ => ⟨?_, ?_⟩⟩
  · unfold intR userR
    simp only [part_parse]
    have hif : ∀ (b : Bool) (f : Int → Int → ℝ),
        (if b then ∑ m ∈ Ico 0 s.mpol, ∑ n ∈ Ico (-s.ntor) (s.ntor + 1), f m n else 0)
          = ∑ m ∈ Ico 0 s.mpol, ∑ n ∈ Ico (-s.ntor) (s.ntor + 1), if b then f m n else 0 := by
      intro b f; cases b <;> simp
    simp only [hif, ← sum_add_distrib]
    refine sum_congr rfl fun m hm => sum_congr rfl fun n hn => ?_
    rw [mem_Ico] at hm hn
    exact modeR s id θ ζ m n hm.1 hn.1 (by omega)
  · unfold intZ userZ
    simp only [part_parse]
    have hif : ∀ (b : Bool) (f : Int → Int → ℝ),
        (if b then ∑ m ∈ Ico 0 s.mpol, ∑ n ∈ Ico (-s.ntor) (s.ntor + 1), f m n else 0)
          = ∑ m ∈ Ico 0 s.mpol, ∑ n ∈ Ico (-s.ntor) (s.ntor + 1), if b then f m n else 0 := by
      intro b f; cases b <;> simp
    simp only [hif, ← sum_add_distrib]
    refine sum_congr rfl fun m hm => sum_congr rfl fun n hn => ?_
    rw [mem_Ico] at hm hn
    exact modeZ s id θ ζ m n hm.1 hn.1 (by omega)

/-- With stellarator symmetry the surfaces agree angle by angle. -/
theorem C26_symmetric (s : Size) (id : Indata) (h : s.lasym = false) (θ ζ : ℝ) :
    intR s (parseToInternalArrays s id) θ ζ = userR s id θ ζ ∧
    intZ s (parseToInternalArrays s id) θ ζ = userZ s id θ ζ := by
  obtain ⟨d, hd, hs⟩ := C26_surface s id
  have := hs θ ζ
  rwa [hd h, add_zero] at this

theorem parse_mode_axisym (s : Size) (id : Indata) (hm : 2 ≤ s.mpol) (hn : 0 ≤ s.ntor) (c : B) :
    parseToInternalArrays s id c (1 * (s.ntor + 1) + 0) = gain s id (delta s id) 1 0 c := by
  rw [parse_eq, Finset.sum_eq_single 1, Finset.sum_eq_single 0]
  · simp
  · intro n hn' hne
    rw [if_neg]
    intro h
    have : |n| = 0 := by omega
    exact hne (abs_eq_zero.mp this)
  · intro h; exact absurd (mem_Ico.mpr ⟨by omega, by omega⟩) h
  · intro m _ hne
    refine sum_eq_zero fun n hn' => ?_
    rw [mem_Ico] at hn'
    rw [if_neg]
    intro h
    have hab : |n| < s.ntor + 1 := by rw [abs_lt]; omega
    exact hne (flat_inj le_rfl (by omega) (abs_nonneg _) hab h).1.symm
  · intro h; exact absurd (mem_Ico.mpr ⟨by omega, by omega⟩) h

/-- The shift is the documented one: it makes the `m = 1`, `n = 0` coefficients `rbs` and `zbc` of the
    shifted boundary equal. -/
theorem C26_shift_gauge (s : Size) (id : Indata) (hm : 2 ≤ s.mpol) (hn : 0 ≤ s.ntor)
    (hl : s.lasym = true) :
    parseToInternalArrays s id .rbsc (1 * (s.ntor + 1) + 0)
      = parseToInternalArrays s id .zbcc (1 * (s.ntor + 1) + 0) := by
  rw [parse_mode_axisym s id hm hn, parse_mode_axisym s id hm hn]
  simp only [gain, hl, if_true, rbsS, zbcS, add_zero, Int.cast_one, one_mul]
  rw [if_pos (by norm_num)]
  have hd : delta s id = Complex.arg ⟨id.rbc 1 s.ntor + id.zbs 1 s.ntor, id.rbs 1 s.ntor - id.zbc 1 s.ntor⟩ := by
    simp [delta, hl, atan2]
  rw [hd]
  set z : ℂ := ⟨id.rbc 1 s.ntor + id.zbs 1 s.ntor, id.rbs 1 s.ntor - id.zbc 1 s.ntor⟩ with hz
  have key : z.im * Real.cos z.arg = z.re * Real.sin z.arg := by
    by_cases h0 : z = 0
    · rw [h0]; simp
    · rw [Complex.cos_arg h0, Complex.sin_arg]; ring
  have hre : z.re = id.rbc 1 s.ntor + id.zbs 1 s.ntor := rfl
  have him : z.im = id.rbs 1 s.ntor - id.zbc 1 s.ntor := rfl
  rw [hre, him] at key
  linear_combination key

/-- the hypotheses are met by a genuinely asymmetric, three-dimensional boundary -/
example : ∃ (s : Size) (id : Indata), s.lasym = true ∧ 2 ≤ s.mpol ∧ 0 < s.ntor ∧
    parseToInternalArrays s id .rbsc (1 * (s.ntor + 1) + 0) ≠ 0 := by
  refine ⟨⟨2, 1, true⟩, ⟨fun _ _ => 1, fun _ _ => 1, fun _ _ => 3, fun _ _ => 3⟩, rfl, by simp, by simp, ?_⟩
  rw [parse_mode_axisym _ _ (by simp) (by simp)]
  have hd : delta ⟨2, 1, true⟩ ⟨fun _ _ => 1, fun _ _ => 1, fun _ _ => 3, fun _ _ => 3⟩ = 0 := by
    simp only [delta, atan2, if_true, sub_self]
    rw [Complex.arg_eq_zero_iff]; norm_num
  rw [hd]
  simp [gain, rbsS]

/-! ## C27 -/

/-- Flipping re-parametrises the same surface by `θ → π - θ`. -/
theorem C27_flip_surface (s : Size) (a : Arrays) (θ ζ : ℝ) :
    intR s (flipTheta s a) θ ζ = intR s a (Real.pi - θ) ζ ∧
    intZ s (flipTheta s a) θ ζ = intZ s a (Real.pi - θ) ζ := by
  have h : ∀ c, part s (flipTheta s a) θ ζ c = part s a (Real.pi - θ) ζ c := by
    intro c
    refine part_flip s a θ ζ c ?_
    intro n _ _ hf
    cases c <;> simp [flipSign, basis] at hf ⊢ <;> norm_num at hf
  unfold intR intZ
  simp only [h, and_self]

/-- Flipping twice gives back the coefficients of every mode. -/
theorem C27_flip_involution (s : Size) (a : Arrays) (c : B) (m n : Int) (h1 : 0 ≤ n)
    (h2 : n ≤ s.ntor) :
    flipTheta s (flipTheta s a) c (m * (s.ntor + 1) + n) = a c (m * (s.ntor + 1) + n) := by
  rw [flip_apply s _ c m n h1 h2, flip_apply s a c m n h1 h2]
  split
  · rw [mul_assoc, flipSign_sq, mul_one]
  · rfl

theorem check_iff (s : Size) (g : Int) (a : Arrays) :
    checkSignOfJacobian s g a = true ↔
      0 < (∑ n ∈ Ico 0 (s.ntor + 1), a .rbcc (1 * (s.ntor + 1) + n))
        * (∑ n ∈ Ico 0 (s.ntor + 1), a .zbsc (1 * (s.ntor + 1) + n)) * g := by
  unfold checkSignOfJacobian
  have h1 := forRange_map (lo := 0) (hi := s.ntor + 1) (fun n (t : ℝ × ℝ) =>
    (t.1 + a .rbcc (1 * (s.ntor + 1) + n), t.2 + a .zbsc (1 * (s.ntor + 1) + n)))
    (fun n x => x + a .rbcc (1 * (s.ntor + 1) + n)) Prod.fst (fun _ _ => rfl) (0, 0)
  have h2 := forRange_map (lo := 0) (hi := s.ntor + 1) (fun n (t : ℝ × ℝ) =>
    (t.1 + a .rbcc (1 * (s.ntor + 1) + n), t.2 + a .zbsc (1 * (s.ntor + 1) + n)))
    (fun n x => x + a .zbsc (1 * (s.ntor + 1) + n)) Prod.snd (fun _ _ => rfl) (0, 0)
  rw [forRange_add] at h1 h2
  simp only [decide_eq_true_eq, h1, h2, zero_add, gt_iff_lt]

/-- After the setup the sign test is never positive: the boundary has the orientation that the solver
    expects (or none can be told, if the test value is zero). -/
theorem C27_setup_sign (s : Size) (g : Int) (id : Indata) (hm : 2 ≤ s.mpol) :
    checkSignOfJacobian s g (setupFromIndata s g id).2 = false := by
  have hkeep : ∀ (a : Arrays) (c : B) (i : Int), c = .rbcc ∨ c = .zbsc →
      ensureM1Constrained s (1 / 2) a c i = a c i := by
    intro a c i hc
    have := congrFun (m1_apply s (1 / 2) a i) c
    beta_reduce at this
    rw [this]
    split
    · rcases hc with rfl | rfl <;> simp [mix]
    · rfl
  rw [← Bool.not_eq_true, check_iff]
  unfold setupFromIndata
  dsimp only
  set a := parseToInternalArrays s id with ha
  by_cases hf : checkSignOfJacobian s g a = true
  · rw [if_pos hf]
    rw [check_iff] at hf
    have e1 : ∑ n ∈ Ico 0 (s.ntor + 1), ensureM1Constrained s (1 / 2) (flipTheta s a) .rbcc (1 * (s.ntor + 1) + n)
        = -∑ n ∈ Ico 0 (s.ntor + 1), a .rbcc (1 * (s.ntor + 1) + n) := by
      rw [← sum_neg_distrib]
      refine sum_congr rfl fun n hn => ?_
      rw [mem_Ico] at hn
      rw [hkeep _ _ _ (Or.inl rfl), flip_apply s a .rbcc 1 n hn.1 (by omega), if_pos ⟨rfl, le_rfl, by omega⟩]
      simp [flipSign]
    have e2 : ∑ n ∈ Ico 0 (s.ntor + 1), ensureM1Constrained s (1 / 2) (flipTheta s a) .zbsc (1 * (s.ntor + 1) + n)
        = ∑ n ∈ Ico 0 (s.ntor + 1), a .zbsc (1 * (s.ntor + 1) + n) := by
      refine sum_congr rfl fun n hn => ?_
      rw [mem_Ico] at hn
      rw [hkeep _ _ _ (Or.inr rfl), flip_apply s a .zbsc 1 n hn.1 (by omega), if_pos ⟨rfl, le_rfl, by omega⟩]
      simp [flipSign]
    rw [e1, e2]
    intro h
    have : ∀ x y z : ℝ, 0 < x * y * z → 0 < -x * y * z → False := by intro x y z h1 h2; nlinarith
    exact this _ _ _ hf h
  · rw [if_neg hf]
    rw [check_iff] at hf
    simpa only [hkeep _ _ _ (Or.inl rfl), hkeep _ _ _ (Or.inr rfl)] using hf

/-- a boundary that needs the flip, and one that does not -/
example : (setupFromIndata ⟨2, 0, false⟩ (-1) ⟨fun _ _ => 1, fun _ _ => -1, fun _ _ => 0, fun _ _ => 0⟩).1 = true
    ∧ (setupFromIndata ⟨2, 0, false⟩ (-1) ⟨fun _ _ => 1, fun _ _ => 1, fun _ _ => 0, fun _ _ => 0⟩).1 = false := by
  have hs : Ico (0 : Int) (0 + 1) = {0} := by decide
  constructor
  · change checkSignOfJacobian _ _ _ = true
    rw [check_iff]
    simp only [hs, sum_singleton]
    rw [parse_mode_axisym ⟨2, 0, false⟩ _ (by simp) (by simp), parse_mode_axisym ⟨2, 0, false⟩ _ (by simp) (by simp)]
    simp [gain, rbcS, zbsS]
  · change checkSignOfJacobian _ _ _ = false
    rw [← Bool.not_eq_true, check_iff]
    simp only [hs, sum_singleton]
    rw [parse_mode_axisym ⟨2, 0, false⟩ _ (by simp) (by simp), parse_mode_axisym ⟨2, 0, false⟩ _ (by simp) (by simp)]
    simp [gain, rbcS, zbsS]

/-! ## C28, boundary arrays -/

/-- Undoing the m=1 transformation of the boundary (factor 1/2, then 1) gives back all arrays. -/
theorem C28_boundary_undo (s : Size) (a : Arrays) :
    ensureM1Constrained s 1 (ensureM1Constrained s (1 / 2) a) = a := by
  have : ∀ i, (fun c => ensureM1Constrained s 1 (ensureM1Constrained s (1 / 2) a) c i) = fun c => a c i := by
    intro i
    rw [m1_apply, m1_apply]
    split
    · exact mix_undo s (1 / 2) 1 (by norm_num) _
    · rfl
  funext c i
  exact congrFun (this i) c

/-- Only the `m = 1` coefficients of the mixed arrays change. -/
theorem C28_boundary_others (s : Size) (f : ℝ) (a : Arrays) (c : B) (m n : Int) (h1 : 0 ≤ n)
    (h2 : n ≤ s.ntor) (h : m ≠ 1 ∨ c = .rbcc ∨ c = .zbsc ∨ c = .rbcs ∨ c = .zbss) :
    ensureM1Constrained s f a c (m * (s.ntor + 1) + n) = a c (m * (s.ntor + 1) + n) := by
  have := congrFun (m1_apply s f a (m * (s.ntor + 1) + n)) c
  beta_reduce at this
  rw [this]
  split
  · rename_i hr
    rcases h with h | h
    · exfalso
      apply h
      have := flat_inj (b := s.ntor + 1) (m := m) (n := n) (m' := 1)
        (n' := m * (s.ntor + 1) + n - (s.ntor + 1)) h1 (by omega) (by omega) (by omega) (by ring)
      exact this.1
    · rcases h with h | h | h | h <;> subst h <;> simp [mix]
  · rfl

/-- The transformed pair holds half the sum and half the difference, so that the constraint
    `rbss = zbcs` reads `zbcs' = 0`. -/
theorem C28_boundary_constraint (s : Size) (a : Arrays) (n : Int) (h1 : 0 ≤ n) (h2 : n ≤ s.ntor) :
    (s.lthreed = true → (ensureM1Constrained s (1 / 2) a .zbcs (1 * (s.ntor + 1) + n) = 0 ↔
      a .rbss (1 * (s.ntor + 1) + n) = a .zbcs (1 * (s.ntor + 1) + n))) ∧
    (s.lasym = true → (ensureM1Constrained s (1 / 2) a .zbcc (1 * (s.ntor + 1) + n) = 0 ↔
      a .rbsc (1 * (s.ntor + 1) + n) = a .zbcc (1 * (s.ntor + 1) + n))) := by
  have hi : s.ntor + 1 ≤ 1 * (s.ntor + 1) + n ∧ 1 * (s.ntor + 1) + n < 2 * (s.ntor + 1) := by omega
  constructor
  · intro h
    have := congrFun (m1_apply s (1 / 2) a (1 * (s.ntor + 1) + n)) .zbcs
    beta_reduce at this
    rw [this, if_pos hi]
    simp [mix, Size.has, h, sub_eq_zero]
  · intro h
    have := congrFun (m1_apply s (1 / 2) a (1 * (s.ntor + 1) + n)) .zbcc
    beta_reduce at this
    rw [this, if_pos hi]
    simp [mix, Size.has, h, sub_eq_zero]

/-! ## The gauge after the whole setup

`parseToInternalArrays` shifts the angle so that `rbsc(1,0) = zbcc(1,0)`; the m=1 constraint then holds
for this mode if it still does when `ensureM1Constrained` is reached. -/

/-- Without a flip the constrained difference of the `(1,0)` mode is zero. -/
theorem C52_gauge_without_flip_partial (s : Size) (g : Int) (id : Indata) (hm : 2 ≤ s.mpol) (hn : 0 ≤ s.ntor)
    (hl : s.lasym = true) (hf : (setupFromIndata s g id).1 = false) :
    (setupFromIndata s g id).2 .zbcc (1 * (s.ntor + 1) + 0) = 0 := by
  have hf' : checkSignOfJacobian s g (parseToInternalArrays s id) = false := hf
  unfold setupFromIndata
  dsimp only
  rw [hf', if_neg (by simp)]
  exact ((C28_boundary_constraint s _ 0 le_rfl hn).2 hl).mpr (C26_shift_gauge s id hm hn hl)

/-- With a flip it is not: `flipTheta` negates `zbcc(1,0)` but not `rbsc(1,0)`, so that the sum and not
    the difference of the two vanishes. The difference keeps twice the old value. -/
theorem C52_gauge_lost_by_flip (s : Size) (g : Int) (id : Indata) (hm : 2 ≤ s.mpol) (hn : 0 ≤ s.ntor)
    (hl : s.lasym = true) (hf : (setupFromIndata s g id).1 = true) :
    (setupFromIndata s g id).2 .rbsc (1 * (s.ntor + 1) + 0) = 0 ∧
    (setupFromIndata s g id).2 .zbcc (1 * (s.ntor + 1) + 0)
      = parseToInternalArrays s id .rbsc (1 * (s.ntor + 1) + 0) := by
  have hf' : checkSignOfJacobian s g (parseToInternalArrays s id) = true := hf
  have hi : s.ntor + 1 ≤ 1 * (s.ntor + 1) + 0 ∧ 1 * (s.ntor + 1) + 0 < 2 * (s.ntor + 1) := by omega
  have hg := C26_shift_gauge s id hm hn hl
  unfold setupFromIndata
  dsimp only
  rw [hf', if_pos rfl]
  set a := parseToInternalArrays s id
  have h1 := congrFun (m1_apply s (1 / 2) (flipTheta s a) (1 * (s.ntor + 1) + 0)) .rbsc
  have h2 := congrFun (m1_apply s (1 / 2) (flipTheta s a) (1 * (s.ntor + 1) + 0)) .zbcc
  beta_reduce at h1 h2
  rw [h1, h2, if_pos hi]
  simp only [mix, Size.has, hl, if_true]
  rw [flip_apply s a .rbsc 1 0 le_rfl hn, flip_apply s a .zbcc 1 0 le_rfl hn,
    if_pos ⟨hl, le_rfl, by omega⟩, if_pos ⟨hl, le_rfl, by omega⟩, ← hg]
  simp only [flipSign]
  rw [if_neg (by decide)]
  constructor <;> ring

/-- a boundary on which this happens -/
theorem C52_flip_example :
    (setupFromIndata ⟨2, 0, true⟩ (-1) ⟨fun _ _ => 2, fun _ _ => -1, fun _ _ => 3, fun _ _ => 3⟩).1 = true ∧
    (setupFromIndata ⟨2, 0, true⟩ (-1) ⟨fun _ _ => 2, fun _ _ => -1, fun _ _ => 3, fun _ _ => 3⟩).2
      .zbcc 1 = 3 := by
  have hd : delta ⟨2, 0, true⟩ ⟨fun _ _ => 2, fun _ _ => -1, fun _ _ => 3, fun _ _ => 3⟩ = 0 := by
    simp only [delta, atan2, if_true, sub_self]
    rw [Complex.arg_eq_zero_iff]; norm_num
  have hs : Ico (0 : Int) (0 + 1) = {0} := by decide
  have hf : (setupFromIndata ⟨2, 0, true⟩ (-1) ⟨fun _ _ => 2, fun _ _ => -1, fun _ _ => 3, fun _ _ => 3⟩).1
      = true := by
    change checkSignOfJacobian _ _ _ = true
    rw [check_iff]
    simp only [hs, sum_singleton]
    rw [parse_mode_axisym ⟨2, 0, true⟩ _ (by simp) (by simp), parse_mode_axisym ⟨2, 0, true⟩ _ (by simp) (by simp), hd]
    simp [gain, rbcS, zbsS]
  refine ⟨hf, ?_⟩
  have h := (C52_gauge_lost_by_flip ⟨2, 0, true⟩ (-1) _ (by simp) (by simp) rfl hf).2
  rw [parse_mode_axisym ⟨2, 0, true⟩ _ (by simp) (by simp), hd] at h
  simpa [gain, rbsS] using h

end Verif.Boundary
