import Verif.CoilGeom.Model

/-!
# C107: coordinate frames and radial movement
-/

namespace Verif.CoilGeom

open Verif.Makegrid (V hypot)

/-! ## specification -/

/-- scalar product -/
def inner3 (u v : V) : ℝ := u.1 * v.1 + u.2.1 * v.2.1 + u.2.2 * v.2.2

/-- triple product: positive for a right-handed set -/
def triple (u v w : V) : ℝ :=
  u.1 * (v.2.1 * w.2.2 - v.2.2 * w.2.1) + u.2.1 * (v.2.2 * w.1 - v.1 * w.2.2) + u.2.2 * (v.1 * w.2.1 - v.2.1 * w.1)

/-- what the header promises: three unit vectors, perpendicular to one another -/
def Orthonormal3 (u v w : V) : Prop :=
  inner3 u u = 1 ∧ inner3 v v = 1 ∧ inner3 w w = 1 ∧ inner3 u v = 0 ∧ inner3 u w = 0 ∧ inner3 v w = 0

/-! ## proofs -/

theorem length_sq (a : V) : length a ^ 2 = inner3 a a := by
  unfold length hypot inner3
  rw [Real.sq_sqrt (by positivity)]; ring

theorem length_zero_iff (a : V) : length a = 0 ↔ a = 0 := by
  constructor
  · intro h
    have h2 := length_sq a
    rw [h] at h2
    unfold inner3 at h2
    obtain ⟨x, y, z⟩ := a
    dsimp only at h2
    have hx : x = 0 := by nlinarith [sq_nonneg x, sq_nonneg y, sq_nonneg z]
    have hy : y = 0 := by nlinarith [sq_nonneg x, sq_nonneg y, sq_nonneg z]
    have hz : z = 0 := by nlinarith [sq_nonneg x, sq_nonneg y, sq_nonneg z]
    rw [hx, hy, hz]; rfl
  · rintro rfl
    simp [length, hypot]

theorem length_nonneg (a : V) : 0 ≤ length a := Real.sqrt_nonneg _

/-- `C107`: scaling keeps the direction and gives the requested length (for a positive one) -/
theorem C107_scaleTo (a : V) (ha : a ≠ 0) (d : ℝ) :
    ∃ b, scaleTo a d = some b ∧ b = (d / Real.sqrt (inner3 a a)) • a ∧ inner3 b b = d ^ 2 := by
  have hl : length a ≠ 0 := fun h => ha ((length_zero_iff a).1 h)
  have hs : Real.sqrt (inner3 a a) = length a := by
    rw [← length_sq, Real.sqrt_sq (length_nonneg a)]
  refine ⟨_, by unfold scaleTo; dsimp only; rw [if_neg hl], ?_, ?_⟩
  · rw [hs]
    obtain ⟨x, y, z⟩ := a
    simp only [Prod.smul_mk, smul_eq_mul]
    rw [mul_comm x, mul_comm y, mul_comm z]
  · have h2 := length_sq a
    unfold inner3 at h2 ⊢
    dsimp only
    field_simp
    rw [h2]; ring

theorem frame_of_unit (f e : V) (hf : inner3 f f = 1) (he : inner3 e e = 1) (d : ℝ) (hd : d = inner3 f e) :
    ∀ g, g = add e ((-d) • f) → ∀ w, w = crossProduct f g →
      inner3 f g = 0 ∧ inner3 f w = 0 ∧ inner3 g w = 0 ∧ inner3 g g = 1 - d ^ 2 ∧ inner3 w w = 1 - d ^ 2 ∧
        triple f g w = 1 - d ^ 2 := by
  rintro g hg w hw
  obtain ⟨a, b, c⟩ := f
  obtain ⟨x, y, z⟩ := e
  subst hg
  subst hw
  simp only [inner3, triple, add, crossProduct, Prod.smul_mk, smul_eq_mul] at *
  have h1 : a * (x + -d * a) + b * (y + -d * b) + c * (z + -d * c) = 0 := by
    linear_combination (-d) * hf - hd
  have h4 : (x + -d * a) * (x + -d * a) + (y + -d * b) * (y + -d * b) + (z + -d * c) * (z + -d * c) = 1 - d ^ 2 := by
    linear_combination he + d ^ 2 * hf + 2 * d * hd
  have h5 : (b * (z + -d * c) - c * (y + -d * b)) * (b * (z + -d * c) - c * (y + -d * b)) +
      (c * (x + -d * a) - a * (z + -d * c)) * (c * (x + -d * a) - a * (z + -d * c)) +
      (a * (y + -d * b) - b * (x + -d * a)) * (a * (y + -d * b) - b * (x + -d * a)) = 1 - d ^ 2 := by
    have key : (b * (z + -d * c) - c * (y + -d * b)) * (b * (z + -d * c) - c * (y + -d * b)) +
      (c * (x + -d * a) - a * (z + -d * c)) * (c * (x + -d * a) - a * (z + -d * c)) +
      (a * (y + -d * b) - b * (x + -d * a)) * (a * (y + -d * b) - b * (x + -d * a)) =
      (a * a + b * b + c * c) * ((x + -d * a) * (x + -d * a) + (y + -d * b) * (y + -d * b) + (z + -d * c) * (z + -d * c))
        - (a * (x + -d * a) + b * (y + -d * b) + c * (z + -d * c)) ^ 2 := by ring
    rw [key, h1, h4, hf]; ring
  refine ⟨h1, by ring, by ring, h4, h5, ?_⟩
  rw [← h5]; ring

/-- the coordinate axis chosen by the code: a unit vector along the component of smallest magnitude -/
theorem mostPerpendicular_spec (a : V) : inner3 (mostPerpendicular a) (mostPerpendicular a) = 1 ∧
    |inner3 a (mostPerpendicular a)| = min (min |a.1| |a.2.1|) |a.2.2| := by
  unfold mostPerpendicular inner3
  dsimp only
  split
  · next h => exact ⟨by norm_num, by rw [h]; simp⟩
  · split
    · next h => exact ⟨by norm_num, by rw [h]; simp⟩
    · next h1 h2 =>
      refine ⟨by norm_num, ?_⟩
      rcases min_choice (min |a.1| |a.2.1|) |a.2.2| with h | h
      · rcases min_choice |a.1| |a.2.1| with h' | h'
        · exact absurd (h.trans h') h1
        · exact absurd (h.trans h') h2
      · rw [h]; simp

/-- `C107` (partial: the header also promises unit length of the second and third vector, which fails, see
    `C107_frame_not_unit`): around any non-zero axis the three vectors are perpendicular to one another and right-handed,
    the first is the unit vector along the axis, and the other two have the common length `√(1 - m²/|axis|²)`, where `m`
    is the magnitude of the smallest component of the axis; this is at least `√(2/3)` -/
theorem C107_frame_partial (axis : V) (ha : axis ≠ 0) :
    ∃ f g w, frame axis = some (f, g, w) ∧ f = (1 / Real.sqrt (inner3 axis axis)) • axis ∧ inner3 f f = 1 ∧
      inner3 f g = 0 ∧ inner3 f w = 0 ∧ inner3 g w = 0 ∧ 0 < triple f g w ∧
      inner3 g g = 1 - (min (min |axis.1| |axis.2.1|) |axis.2.2|) ^ 2 / inner3 axis axis ∧
      inner3 w w = inner3 g g ∧ 2 / 3 ≤ inner3 g g := by
  obtain ⟨f, hf, hfe, hff⟩ := C107_scaleTo axis ha 1
  rw [one_pow] at hff
  have hf0 : f ≠ 0 := by
    rintro rfl
    simp [inner3] at hff
  obtain ⟨q, hq, hqe, -⟩ := C107_scaleTo f hf0 (-(dot f (mostPerpendicular axis)))
  rw [hff, Real.sqrt_one, div_one] at hqe
  obtain ⟨he, hm⟩ := mostPerpendicular_spec axis
  have hd : dot f (mostPerpendicular axis) = inner3 f (mostPerpendicular axis) := by
    unfold dot inner3; ring
  obtain ⟨h1, h2, h3, h4, h5, h6⟩ := frame_of_unit f (mostPerpendicular axis) hff he _ hd
    (add (mostPerpendicular axis) q) (by rw [hqe]) _ rfl
  have hpos : 0 < inner3 axis axis := by
    rw [← length_sq]
    have : length axis ≠ 0 := fun h => ha ((length_zero_iff _).1 h)
    positivity
  have hdd : (dot f (mostPerpendicular axis)) ^ 2 =
      (min (min |axis.1| |axis.2.1|) |axis.2.2|) ^ 2 / inner3 axis axis := by
    have e : dot f (mostPerpendicular axis) =
        (1 / Real.sqrt (inner3 axis axis)) * inner3 axis (mostPerpendicular axis) := by
      rw [hd, hfe]
      simp only [inner3, Prod.smul_fst, Prod.smul_snd, smul_eq_mul]; ring
    rw [e, mul_pow, div_pow, one_pow, Real.sq_sqrt hpos.le, ← hm, sq_abs]
    ring
  have hle : (min (min |axis.1| |axis.2.1|) |axis.2.2|) ^ 2 / inner3 axis axis ≤ 1 / 3 := by
    rw [div_le_iff₀ hpos]
    set m := min (min |axis.1| |axis.2.1|) |axis.2.2| with hmdef
    have m0 : 0 ≤ m := by positivity
    have mx : m ≤ |axis.1| := le_trans (min_le_left _ _) (min_le_left _ _)
    have my : m ≤ |axis.2.1| := le_trans (min_le_left _ _) (min_le_right _ _)
    have mz : m ≤ |axis.2.2| := min_le_right _ _
    have ex : m ^ 2 ≤ axis.1 ^ 2 := by rw [← sq_abs axis.1]; exact pow_le_pow_left₀ m0 mx 2
    have ey : m ^ 2 ≤ axis.2.1 ^ 2 := by rw [← sq_abs axis.2.1]; exact pow_le_pow_left₀ m0 my 2
    have ez : m ^ 2 ≤ axis.2.2 ^ 2 := by rw [← sq_abs axis.2.2]; exact pow_le_pow_left₀ m0 mz 2
    unfold inner3
    nlinarith
  rw [hdd] at h4 h5 h6
  refine ⟨f, _, _, ?_, hfe, hff, h1, h2, h3, ?_, h4, by rw [h5, h4], by rw [h4]; linarith⟩
  · unfold frame
    rw [hf]
    dsimp only
    rw [hq]
  · rw [h6]; linarith

/-- `C107`: the promise of the header holds exactly for the axes with a vanishing component -/
theorem C107_orthonormal_iff (axis : V) (ha : axis ≠ 0) :
    (∃ f g w, frame axis = some (f, g, w) ∧ Orthonormal3 f g w) ↔ axis.1 = 0 ∨ axis.2.1 = 0 ∨ axis.2.2 = 0 := by
  obtain ⟨f, g, w, hfr, -, hff, hfg, hfw, hgw, -, hgg, hww, -⟩ := C107_frame_partial axis ha
  have hpos : 0 < inner3 axis axis := by
    rw [← length_sq]
    have : length axis ≠ 0 := fun h => ha ((length_zero_iff _).1 h)
    have := length_nonneg axis
    positivity
  have hmin : min (min |axis.1| |axis.2.1|) |axis.2.2| = 0 ↔ axis.1 = 0 ∨ axis.2.1 = 0 ∨ axis.2.2 = 0 := by
    constructor
    · intro h
      rcases min_choice (min |axis.1| |axis.2.1|) |axis.2.2| with h1 | h1
      · rw [h1] at h
        rcases min_choice |axis.1| |axis.2.1| with h2 | h2
        · rw [h2] at h; exact Or.inl (abs_eq_zero.1 h)
        · rw [h2] at h; exact Or.inr (Or.inl (abs_eq_zero.1 h))
      · rw [h1] at h; exact Or.inr (Or.inr (abs_eq_zero.1 h))
    · intro h
      refine le_antisymm ?_ (by positivity)
      rcases h with h | h | h
      · exact le_trans (min_le_left _ _) (le_trans (min_le_left _ _) (by rw [h, abs_zero]))
      · exact le_trans (min_le_left _ _) (le_trans (min_le_right _ _) (by rw [h, abs_zero]))
      · exact le_trans (min_le_right _ _) (by rw [h, abs_zero])
  rw [← hmin]
  constructor
  · rintro ⟨f', g', w', h', -, h1, -⟩
    rw [hfr] at h'
    injection h' with h'
    injection h' with e1 e2
    injection e2 with e2 e3
    rw [← e2, hgg] at h1
    have : (min (min |axis.1| |axis.2.1|) |axis.2.2|) ^ 2 / inner3 axis axis = 0 := by linarith
    rcases div_eq_zero_iff.1 this with h | h
    · exact pow_eq_zero_iff (two_ne_zero) |>.1 h
    · exact absurd h hpos.ne'
  · intro h
    have e : inner3 g g = 1 := by rw [hgg, h]; simp
    exact ⟨f, g, w, hfr, hff, e, by rw [hww, e], hfg, hfw, hgw⟩

/-- `C107` fails: around the space diagonal the second and third vector have length `√(2/3)`, not 1 -/
theorem C107_frame_not_unit : ∃ f g w, frame (1, 1, 1) = some (f, g, w) ∧ inner3 g g = 2 / 3 ∧ inner3 w w = 2 / 3 ∧
    ¬ Orthonormal3 f g w := by
  obtain ⟨f, g, w, hfr, -, hff, hfg, hfw, hgw, -, hgg, hww, -⟩ := C107_frame_partial ((1, 1, 1) : V)
    (by intro h; injection h with h; exact one_ne_zero h)
  have e : inner3 g g = 2 / 3 := by rw [hgg]; norm_num [inner3]
  exact ⟨f, g, w, hfr, e, by rw [hww, e], fun h => by have := h.2.1; rw [e] at this; norm_num at this⟩

/-- `C107` fails: around the zero vector everything is NaN, silently -/
theorem C107_frame_zero : frame 0 = none := by
  have : length (0 : V) = 0 := (length_zero_iff 0).2 rfl
  unfold frame scaleTo
  dsimp only
  rw [if_pos this]

/-! ## radial movement -/

/-- `C107`: a point at radius `r > 0` and azimuth `φ` goes to radius `r + step` at the same azimuth and height -/
theorem C107_vertex (step r phi z : ℝ) (hr : 0 < r) :
    moveVertex step (r * Real.cos phi, r * Real.sin phi, z) =
      ((r + step) * Real.cos phi, (r + step) * Real.sin phi, z) := by
  have hn : ‖(⟨r * Real.cos phi, r * Real.sin phi⟩ : ℂ)‖ = r := by
    rw [Complex.norm_def, Complex.normSq_mk]
    rw [show r * Real.cos phi * (r * Real.cos phi) + r * Real.sin phi * (r * Real.sin phi) = r ^ 2 by
      linear_combination r ^ 2 * Real.sin_sq_add_cos_sq phi]
    exact Real.sqrt_sq hr.le
  have h0 : (⟨r * Real.cos phi, r * Real.sin phi⟩ : ℂ) ≠ 0 := by
    intro h; rw [h, norm_zero] at hn; exact hr.ne hn
  unfold moveVertex
  dsimp only
  rw [Complex.cos_arg h0, Complex.sin_arg, hn]
  rw [show r * Real.cos phi * (r * Real.cos phi) + r * Real.sin phi * (r * Real.sin phi) = r ^ 2 by
      linear_combination r ^ 2 * Real.sin_sq_add_cos_sq phi]
  rw [Real.sqrt_sq hr.le, mul_div_cancel_left₀ _ hr.ne', mul_div_cancel_left₀ _ hr.ne']

/-- every point off the axis has cylindrical coordinates -/
theorem polar (v : V) (h : v.1 ≠ 0 ∨ v.2.1 ≠ 0) : ∃ r phi, 0 < r ∧ v.1 ^ 2 + v.2.1 ^ 2 = r ^ 2 ∧
    v = (r * Real.cos phi, r * Real.sin phi, v.2.2) := by
  have h0 : (⟨v.1, v.2.1⟩ : ℂ) ≠ 0 := by
    intro e
    have e1 := congrArg Complex.re e
    have e2 := congrArg Complex.im e
    rcases h with h | h
    · exact h e1
    · exact h e2
  have hp : 0 < ‖(⟨v.1, v.2.1⟩ : ℂ)‖ := norm_pos_iff.2 h0
  refine ⟨‖(⟨v.1, v.2.1⟩ : ℂ)‖, Complex.arg ⟨v.1, v.2.1⟩, hp, ?_, ?_⟩
  · rw [← Complex.normSq_eq_norm_sq, Complex.normSq_mk]; ring
  · rw [Complex.cos_arg h0, Complex.sin_arg, mul_div_cancel₀ _ hp.ne', mul_div_cancel₀ _ hp.ne']

/-- `C107`: two movements in a row are one movement by the sum, as long as the point stays off the axis; in particular
    moving back restores the point -/
theorem C107_vertex_compose (a b : ℝ) (v : V) (h : v.1 ≠ 0 ∨ v.2.1 ≠ 0)
    (ha : 0 < Real.sqrt (v.1 ^ 2 + v.2.1 ^ 2) + a) : moveVertex b (moveVertex a v) = moveVertex (a + b) v := by
  obtain ⟨r, phi, hr, hrr, hv⟩ := polar v h
  rw [hrr, Real.sqrt_sq hr.le] at ha
  rw [hv, C107_vertex a r phi _ hr, C107_vertex b _ phi _ ha, C107_vertex (a + b) r phi _ hr, add_assoc]

theorem C107_vertex_back (a : ℝ) (v : V) (h : v.1 ≠ 0 ∨ v.2.1 ≠ 0)
    (ha : 0 < Real.sqrt (v.1 ^ 2 + v.2.1 ^ 2) + a) : moveVertex (-a) (moveVertex a v) = v := by
  rw [C107_vertex_compose a (-a) v h ha, add_neg_cancel]
  obtain ⟨r, phi, hr, -, hv⟩ := polar v h
  rw [hv, C107_vertex 0 r phi _ hr, add_zero]

example : 0 < Real.sqrt ((3 : ℝ) ^ 2 + 4 ^ 2) + (-4) := by
  rw [show ((3 : ℝ) ^ 2 + 4 ^ 2) = 5 ^ 2 by norm_num, Real.sqrt_sq (by norm_num)]; norm_num

/-! ### whole configurations -/

/-- the carriers that can be moved -/
def Movable : Carrier → Prop
  | .notSet => True
  | .straight => False
  | .fourier => False
  | .circular _ c n => c.1 = 0 ∧ c.2.1 = 0 ∧ n.1 = 0 ∧ n.2.1 = 0 ∧ n.2.2 ≠ 0
  | .polygon _ => True

/-- specification: the point `w` is the point `v` pushed outwards by `step` -/
def Pushed (step : ℝ) (v w : V) : Prop :=
  ∀ r phi, 0 < r → v = (r * Real.cos phi, r * Real.sin phi, v.2.2) →
    w = ((r + step) * Real.cos phi, (r + step) * Real.sin phi, v.2.2)

/-- specification: the carrier `d` is the carrier `c` pushed outwards by `step` -/
def PushedCarrier (step : ℝ) : Carrier → Carrier → Prop
  | .notSet, .notSet => True
  | .circular r c n, .circular r' c' n' => r' = r + step ∧ c' = c ∧ n' = n
  | .polygon vs, .polygon ws => List.Forall₂ (Pushed step) vs ws
  | _, _ => False

theorem moveCarrier_movable (step : ℝ) (c : Carrier) (h : Movable c) :
    (moveCarrier step c).2 = .ok () ∧ PushedCarrier step c (moveCarrier step c).1 := by
  cases c with
  | notSet => exact ⟨rfl, trivial⟩
  | straight => exact h.elim
  | fourier => exact h.elim
  | circular r c n =>
    obtain ⟨h1, h2, h3, h4, h5⟩ := h
    have e : moveCircular step r c n = .ok (r + step) := by
      unfold moveCircular
      rw [if_neg (by rintro (h | h); exacts [h h1, h h2]),
        if_neg (by rintro (h | h | h); exacts [h h3, h h4, h5 h])]
    simp only [moveCarrier, e]
    exact ⟨trivial, rfl, rfl, rfl⟩
  | polygon vs =>
    refine ⟨rfl, ?_⟩
    change List.Forall₂ (Pushed step) vs (vs.map (moveVertex step))
    induction vs with
    | nil => exact List.Forall₂.nil
    | cons v vs ih =>
      refine List.Forall₂.cons ?_ (ih trivial)
      intro r phi hr hv
      rw [hv]
      exact C107_vertex step r phi _ hr

theorem walk_ok {α : Type} (f : α → α × Outcome Unit) (P : α → Prop) (R : α → α → Prop)
    (h : ∀ a, P a → (f a).2 = .ok () ∧ R a (f a).1) (l : List α) (hl : ∀ a ∈ l, P a) :
    (walk f l).2 = .ok () ∧ List.Forall₂ R l (walk f l).1 := by
  induction l with
  | nil => exact ⟨rfl, List.Forall₂.nil⟩
  | cons a l ih =>
    obtain ⟨h1, h2⟩ := h a (hl a (by simp))
    obtain ⟨i1, i2⟩ := ih fun x hx => hl x (by simp [hx])
    have e : f a = ((f a).1, .ok ()) := by rw [← h1]
    have e2 : walk f (a :: l) = ((f a).1 :: (walk f l).1, (walk f l).2) := by
      rw [walk, e]
    rw [e2]
    exact ⟨i1, List.Forall₂.cons h2 i2⟩

theorem walk_fail {α : Type} (f : α → α × Outcome Unit) (P : α → Prop)
    (h : ∀ a, ¬ P a → (f a).2 ≠ .ok ()) (l : List α) (hl : ∃ a ∈ l, ¬ P a) : (walk f l).2 ≠ .ok () := by
  induction l with
  | nil => obtain ⟨a, ha, -⟩ := hl; cases ha
  | cons a l ih =>
    rw [walk]
    obtain ⟨b, hb, hP⟩ := hl
    split
    · next a' e =>
      rcases List.mem_cons.1 hb with rfl | hb
      · exact absurd (by rw [e]) (h b hP)
      · exact ih ⟨b, hb, hP⟩
    · next a' e hne heq =>
      intro hc
      exact hne hc

/-- `C107`: a configuration of which every carrier can be moved is moved as a whole, carrier by carrier -/
theorem C107_config (step : ℝ) (c : List (List (List Carrier))) (h : ∀ s ∈ c, ∀ k ∈ s, ∀ t ∈ k, Movable t) :
    (moveConfig step c).2 = .ok () ∧
      List.Forall₂ (List.Forall₂ (List.Forall₂ (PushedCarrier step))) c (moveConfig step c).1 := by
  unfold moveConfig
  refine walk_ok _ (fun s => ∀ k ∈ s, ∀ t ∈ k, Movable t) _ ?_ c h
  intro s hs
  refine walk_ok _ (fun k => ∀ t ∈ k, Movable t) _ ?_ s hs
  intro k hk
  exact walk_ok _ Movable _ (moveCarrier_movable step) k hk

/-- `C107`: success is never reported when some carrier cannot be moved -/
theorem C107_refused (step : ℝ) (c : List (List (List Carrier)))
    (h : ∃ s ∈ c, ∃ k ∈ s, ∃ t ∈ k, ¬ Movable t) : (moveConfig step c).2 ≠ .ok () := by
  unfold moveConfig
  refine walk_fail _ (fun s => ¬ ∃ k ∈ s, ∃ t ∈ k, ¬ Movable t) ?_ c ?_
  · intro s hs
    refine walk_fail _ (fun k => ¬ ∃ t ∈ k, ¬ Movable t) ?_ s (by
      obtain ⟨k, hk, ht⟩ := not_not.1 hs
      exact ⟨k, hk, not_not.2 ht⟩)
    intro k hk
    refine walk_fail _ Movable ?_ k (not_not.1 hk)
    intro t ht
    cases t with
    | notSet => exact absurd trivial ht
    | straight => intro h; cases h
    | fourier => intro h; cases h
    | polygon vs => exact absurd trivial ht
    | circular r c n =>
      simp only [moveCarrier]
      split
      · next r' e =>
        exfalso
        apply ht
        unfold moveCircular at e
        split at e
        · cases e
        · next h1 =>
          split at e
          · cases e
          · next h2 =>
            push Not at h1 h2
            exact ⟨h1.1, h1.2, h2.1, h2.2.1, h2.2.2⟩
      · intro h; cases h
  · obtain ⟨s, hs, hk⟩ := h
    exact ⟨s, hs, not_not.2 hk⟩

example : ∀ s ∈ [[[Carrier.polygon [(1, 0, 0), (0, 1, 0)], Carrier.circular 2 (0, 0, 1) (0, 0, 1)]]],
    ∀ k ∈ s, ∀ t ∈ k, Movable t := by
  intro s hs k hk t ht
  simp only [List.mem_cons, List.not_mem_nil, or_false] at hs
  subst hs
  simp only [List.mem_cons, List.not_mem_nil, or_false] at hk
  subst hk
  simp only [List.mem_cons, List.not_mem_nil, or_false] at ht
  rcases ht with rfl | rfl
  · trivial
  · exact ⟨rfl, rfl, rfl, rfl, one_ne_zero⟩

/-! ### what fails -/

/-- `C107` fails: an off-centre circular filament terminates the process although the single-filament function returns
    an error -/
theorem C107_circle_aborts (step : ℝ) :
    moveCircular step 1 (1, 0, 0) (0, 0, 1) = .status "center has to be on origin" ∧
      (moveConfig step [[[.circular 1 (1, 0, 0) (0, 0, 1)]]]).2 = .abort "CHECK_OK" := by
  have e : moveCircular step 1 (1, 0, 0) (0, 0, 1) = .status "center has to be on origin" := by
    unfold moveCircular
    rw [if_pos (Or.inl one_ne_zero)]
  refine ⟨e, ?_⟩
  simp only [moveConfig, walk, moveCarrier, e]

/-- `C107` fails: when a later carrier is refused, the earlier ones have already been moved -/
theorem C107_half_moved :
    moveConfig 1 [[[.circular 1 (0, 0, 0) (0, 0, 1), .straight]]] =
      ([[[.circular 2 (0, 0, 0) (0, 0, 1), .straight]]], .status "InfiniteStraightFilament") := by
  have e : moveCircular 1 1 (0, 0, 0) (0, 0, 1) = .ok 2 := by
    unfold moveCircular
    rw [if_neg (by simp), if_neg (by simp)]
    norm_num
  simp only [moveConfig, walk, moveCarrier, e]

/-- `C107` fails: there is no check that the radius stays positive; a step inwards past the axis turns a loop into one
    of negative radius -/
theorem C107_negative_radius :
    moveConfig (-2) [[[.circular 1 (0, 0, 0) (0, 0, 1)]]] = ([[[.circular (-1) (0, 0, 0) (0, 0, 1)]]], .ok ()) := by
  have e : moveCircular (-2) 1 (0, 0, 0) (0, 0, 1) = .ok (-1) := by
    unfold moveCircular
    rw [if_neg (by simp), if_neg (by simp)]
    norm_num
  simp only [moveConfig, walk, moveCarrier, e]

/-- `C107` fails: a vertex pushed inwards past the axis comes out on the other side, and moving back does not restore
    it -/
theorem C107_past_axis : moveVertex 2 (moveVertex (-2) (1, 0, 0)) = ((-3, 0, 0) : V) := by
  have h1 := C107_vertex (-2) 1 0 0 one_pos
  rw [Real.cos_zero, Real.sin_zero] at h1
  norm_num at h1
  rw [h1]
  have h2 := C107_vertex 2 1 Real.pi 0 one_pos
  rw [Real.cos_pi, Real.sin_pi] at h2
  norm_num at h2
  rw [h2]

/-- `C107` fails: a vertex on the axis, where "outwards" has no meaning, moves along x -/
theorem C107_on_axis (step z : ℝ) : moveVertex step (0, 0, z) = (step, 0, z) := by
  unfold moveVertex
  have : (⟨0, 0⟩ : ℂ) = 0 := rfl
  simp [this]

end Verif.CoilGeom
