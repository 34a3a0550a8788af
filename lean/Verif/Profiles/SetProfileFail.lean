import Verif.Profiles.SetProfileProps

/-! # C104: positions off the grid -/
namespace Verif.Profiles
open Verif Verif.Partition

/-- two knots without a knot between them have neighbouring indices -/
theorem next_knot {k : RVec} (hk : Increasing k) {i j : Int} (hi0 : 0 ≤ i) (hj0 : 0 ≤ j) (hi : i < k.n) (hj : j < k.n)
    (hlt : k.v i < k.v j) (hno : ∀ l, 0 ≤ l → l < k.n → ¬ (k.v i < k.v l ∧ k.v l < k.v j)) : j = i + 1 := by
  have hij : i < j := by
    by_contra hc
    have := hk.le hj0 (by omega : j ≤ i) hi
    linarith
  by_contra hne
  exact hno (i + 1) (by omega) (by omega) ⟨hk i (i + 1) hi0 (by omega) (by omega), hk (i + 1) j (by omega) (by omega) hj⟩

/-- distance between neighbouring knots of one stage -/
noncomputable def hStep (ns : Int) : ℝ := 1 / (2 * (ns - 1))

theorem stage_points (ns : Int) (h : 2 ≤ ns) (x : ℝ) :
    (isGridPoint [ns] x ∨ ∃ n ∈ [ns], x = -(1 / (2 * (n - 1)) : ℝ)) ↔
      ∃ m : Int, -1 ≤ m ∧ m ≤ 2 * (ns - 1) ∧ x = m * hStep ns := by
  have h2 : (2 : ℝ) ≤ (ns : ℝ) := by exact_mod_cast h
  have h3 : (ns : ℝ) - 1 ≠ 0 := by linarith
  unfold isGridPoint hStep sFull sHalf
  simp only [List.mem_singleton, exists_eq_left]
  constructor
  · rintro ((⟨j, a, b, rfl⟩ | ⟨j, a, b, rfl⟩) | rfl)
    · exact ⟨2 * j, by omega, by omega, by push_cast; field_simp⟩
    · exact ⟨2 * j + 1, by omega, by omega, by push_cast; field_simp⟩
    · exact ⟨-1, by omega, by omega, by push_cast; field_simp⟩
  · rintro ⟨m, a, b, rfl⟩
    rcases Int.even_or_odd' m with ⟨j, rfl | rfl⟩
    · exact Or.inl (Or.inl ⟨j, by omega, by omega, by push_cast; field_simp⟩)
    · by_cases hj : 0 ≤ j
      · exact Or.inl (Or.inr ⟨j, by omega, by omega, by push_cast; field_simp⟩)
      · have : j = -1 := by omega
        subst this
        exact Or.inr (by push_cast; field_simp)

/-- **C104**: between two neighbouring grid points of the only stage the profile is the straight line through the *next
    two* grid points, so it jumps at every grid point -/
theorem C104_between (inp : ProfileInput) (ns : Int) (h : inp.ns_array = [ns]) (hns : 2 ≤ ns) (f : ℝ → ℝ) (q : Quadrature)
    (m : Int) (hm0 : 0 ≤ m) (hm : m + 2 ≤ 2 * (ns - 1)) (x : ℝ) (hx0 : m * hStep ns < x) (hx1 : x ≤ (m + 1) * hStep ns) :
    ∃ a, setProfile inp "iota" f = .ok a ∧ evalIotaProfile q a.piota x = .ok
      (f ((m + 1) * hStep ns) + (x - (m + 1) * hStep ns) / hStep ns * (f ((m + 2) * hStep ns) - f ((m + 1) * hStep ns))) := by
  obtain ⟨k, y, c, hk, _, hy, hv, hx, _, e2, _⟩ := C104_knots inp (by rw [h]; simpa using hns) f
  refine ⟨_, e2, ?_⟩
  rw [h] at hx
  have hh : 0 < hStep ns := by
    have h2 : (2 : ℝ) ≤ (ns : ℝ) := by exact_mod_cast hns
    have h3 : (0 : ℝ) < (ns : ℝ) - 1 := by linarith
    unfold hStep; positivity
  have idx : ∀ p : Int, -1 ≤ p → p ≤ 2 * (ns - 1) → ∃ i, 0 ≤ i ∧ i < k.n ∧ k.v i = p * hStep ns :=
    fun p a b => (hx _).2 ((stage_points ns hns _).2 ⟨p, a, b, rfl⟩)
  have nb : ∀ p : Int, ∀ i j, 0 ≤ i → i < k.n → 0 ≤ j → j < k.n → k.v i = p * hStep ns → k.v j = (p + 1) * hStep ns → j = i + 1 := by
    intro p i j a b c d ei ej
    refine next_knot hk a c b d (by rw [ei, ej]; linarith) ?_
    rintro l l0 l1 ⟨q1, q2⟩
    obtain ⟨r, _, _, er⟩ := (stage_points ns hns _).1 ((hx (k.v l)).1 ⟨l, l0, l1, rfl⟩)
    rw [ei, er] at q1
    rw [ej, er] at q2
    have r1 := lt_of_mul_lt_mul_right q1 hh.le
    have r2 := lt_of_mul_lt_mul_right q2 hh.le
    have r1' : p < r := by exact_mod_cast r1
    have r2' : r < p + 1 := by exact_mod_cast r2
    omega
  obtain ⟨i0, a0, b0, v0⟩ := idx m (by omega) (by omega)
  obtain ⟨i1, a1, b1, v1⟩ := idx (m + 1) (by omega) (by omega)
  obtain ⟨i2, a2, b2, v2⟩ := idx (m + 2) (by omega) (by omega)
  push_cast at v1 v2
  have n1 : i1 = i0 + 1 := nb m i0 i1 a0 b0 a1 b1 v0 v1
  have n2 : i2 = i1 + 1 := nb (m + 1) i1 i2 a1 b1 a2 b2 (by push_cast; exact v1) (by push_cast; rw [v2]; ring)
  have n2' : i2 = i0 + 2 := by omega
  subst n1; subst n2'
  have key := (C31_actual k y hk (by omega) hy i0 a0 b1 x (by rw [v0]; exact hx0) (by rw [v1]; exact hx1)).1 b2
  rw [hv, hv, v1, v2] at key
  have ed : (m + 2 : ℝ) * hStep ns - (m + 1) * hStep ns = hStep ns := by ring
  rw [ed] at key
  unfold evalIotaProfile
  rw [name_iota]
  simp only [evalProfileFunction, key]

/-- F107: the value jumps by `2 h^2` to the right of every grid point for `f(s) = s^2`; the limit is not the value there, and
    next to the axis it is negative -/
theorem C104_jump (inp : ProfileInput) (ns : Int) (h : inp.ns_array = [ns]) (hns : 2 ≤ ns) (q : Quadrature) (m : Int)
    (hm0 : 0 ≤ m) (hm : m + 2 ≤ 2 * (ns - 1)) (d : ℝ) (hd0 : 0 < d) (hd1 : d ≤ hStep ns) :
    ∃ a, setProfile inp "iota" (fun s => s ^ 2) = .ok a ∧
      evalIotaProfile q a.piota (m * hStep ns + d) =
        .ok ((m * hStep ns + d) ^ 2 - (hStep ns - d) * (2 * hStep ns - d)) := by
  have hh : hStep ns ≠ 0 := by linarith
  obtain ⟨a, e, v⟩ := C104_between inp ns h hns (fun s => s ^ 2) q m hm0 hm (m * hStep ns + d) (by linarith) (by linarith)
  refine ⟨a, e, ?_⟩
  rw [v]
  congr 1
  field_simp
  ring

/-- the stage of three surfaces; the position `1/16` is the flux label of the first half-grid surface for a flux
    proportional to the square of the position: the profile `s^2` is `-5/64` there -/
theorem C104_flux_fails (inp : ProfileInput) (h : inp.ns_array = [3]) (q : Quadrature) :
    fluxPoly ⟨2, fun i => i⟩ (sHalf 3 0) = 1 / 16 ∧
    ∃ a, setProfile inp "iota" (fun s => s ^ 2) = .ok a ∧ evalIotaProfile q a.piota (1 / 16) = .ok (-(5 / 64)) := by
  refine ⟨?_, ?_⟩
  · unfold fluxPoly poly sHalf
    rw [show ((2 : Int).toNat) = 2 from rfl]
    simp [Finset.sum_range_succ]
    norm_num
  · have e : hStep 3 = 1 / 4 := by unfold hStep; norm_num
    obtain ⟨a, e1, v⟩ := C104_jump inp 3 h (by norm_num) q 0 le_rfl (by norm_num) (1 / 16) (by norm_num) (by rw [e]; norm_num)
    refine ⟨a, e1, ?_⟩
    rw [e] at v
    norm_num at v ⊢
    exact v

/-- **C104**: a prescribed current profile only gives the shape: with `curtor = 0`, the default, there is no current at all -/
theorem C104_current_zero (I : RadialIn) (h : I.curtor = 0) (lfreeb : Bool) (nt : Int) (R : Int → Ranges) (v : Solver)
    (hns : 2 ≤ I.ns) (hnt : 1 ≤ nt) (hT : Team nt I.ns lfreeb R) (ha : poly I.aphi 1 ≠ 0) (t : Int) (ht : isThread nt t)
    (j : Int) (hj : holdsHalf (R t) j) : ((initProfiles I false nt R v).p t).currH (j - (R t).nsMinH) = 0 := by
  obtain ⟨_, _, _, _, h5, _⟩ := C102_half_grid I false lfreeb nt R v hns hnt hT ha t ht j hj
  rw [h5]
  have : I.Itor = 0 := by
    unfold RadialIn.Itor
    rw [h]
    simp
  rw [this, zero_mul]

/-! ## rounding -/

/-- the knots of seven surfaces in doubles -/
def knots7 : RVec := ⟨14, fun i => ((knotsF 7 i : ℚ) : ℝ)⟩

theorem knots7_adj : ∀ i : Fin 13, knotsF 7 (i.val : Int) < knotsF 7 ((i.val : Int) + 1) := by decide +kernel

theorem knots7_increasing : Increasing knots7 := by
  intro i j h0 hij hj
  have hj' : j < 14 := hj
  have step : ∀ n : Nat, ∀ a : Int, 0 ≤ a → a + n + 1 < 14 → knotsF 7 a < knotsF 7 (a + n + 1) := by
    intro n
    induction n with
    | zero =>
      intro a a0 a1
      have := knots7_adj ⟨a.toNat, by omega⟩
      have e : ((a.toNat : Nat) : Int) = a := by omega
      simpa [e] using this
    | succ n ih =>
      intro a a0 a1
      push_cast at a1
      have h1 := ih a a0 (by omega)
      have := knots7_adj ⟨(a + n + 1).toNat, by omega⟩
      have e : (((a + n + 1).toNat : Nat) : Int) = a + n + 1 := by omega
      simp only [e] at this
      refine h1.trans ?_
      push_cast
      rw [show a + ((n : Int) + 1) + 1 = a + n + 1 + 1 by ring]
      exact this
  have := step (j - i - 1).toNat i h0 (by omega)
  have e : i + (((j - i - 1).toNat : Nat) : Int) + 1 = j := by omega
  rw [e] at this
  show ((knotsF 7 i : ℚ) : ℝ) < ((knotsF 7 j : ℚ) : ℝ)
  exact_mod_cast this

/-- the knot of the fourth half-grid surface and the position of that surface are neighbouring doubles -/
theorem pos7 : knotsF 7 8 < posHF 7 3 ∧ posHF 7 3 ≤ knotsF 7 9 ∧ posHF 7 3 - knotsF 7 8 < 1 / 2 ^ 52 ∧
    knotsF 7 9 ^ 2 + (posHF 7 3 - knotsF 7 9) / (knotsF 7 10 - knotsF 7 9) * (knotsF 7 10 ^ 2 - knotsF 7 9 ^ 2) + 1 / 100 <
      posHF 7 3 ^ 2 := by decide +kernel

/-- F107: with the grid in doubles the position of a surface may exceed its knot by one unit in the last place. For seven
    surfaces and `f(s) = s^2` the solver's value on the fourth half-grid surface is wrong by more than `0.01` even if
    everything else is computed exactly -/
theorem C104_rounding_fails :
    |((posHF 7 3 : ℚ) : ℝ) - knots7.v 8| < 1 / 2 ^ 52 ∧
    evalLineSegment knots7 ⟨14, fun i => knots7.v i ^ 2⟩ (posHF 7 3 : ℚ) + 1 / 100 < ((posHF 7 3 : ℚ) : ℝ) ^ 2 := by
  obtain ⟨p1, p2, p3, p4⟩ := pos7
  have q1 : knots7.v 8 < ((posHF 7 3 : ℚ) : ℝ) := by show ((knotsF 7 8 : ℚ) : ℝ) < _; exact_mod_cast p1
  have q2 : ((posHF 7 3 : ℚ) : ℝ) ≤ knots7.v (8 + 1) := by show _ ≤ ((knotsF 7 9 : ℚ) : ℝ); exact_mod_cast p2
  refine ⟨?_, ?_⟩
  · rw [abs_of_pos (by linarith)]
    show ((posHF 7 3 : ℚ) : ℝ) - ((knotsF 7 8 : ℚ) : ℝ) < _
    have := (Rat.cast_lt (K := ℝ)).2 p3
    push_cast at this
    exact this
  · rw [(C31_actual knots7 ⟨14, fun i => knots7.v i ^ 2⟩ knots7_increasing (by simp [knots7]) rfl 8 (by norm_num)
      (by simp [knots7]) _ q1 q2).1 (by simp [knots7])]
    show ((knotsF 7 9 : ℚ) : ℝ) ^ 2 + (((posHF 7 3 : ℚ) : ℝ) - ((knotsF 7 9 : ℚ) : ℝ)) / (((knotsF 7 10 : ℚ) : ℝ) - ((knotsF 7 9 : ℚ) : ℝ)) *
      (((knotsF 7 10 : ℚ) : ℝ) ^ 2 - ((knotsF 7 9 : ℚ) : ℝ) ^ 2) + 1 / 100 < _
    have := (Rat.cast_lt (K := ℝ)).2 p4
    push_cast at this
    exact this

end Verif.Profiles
