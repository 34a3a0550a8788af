import Verif.Profiles.SetProfile
import Verif.Profiles.LineSeg
import Verif.Profiles.RadialProps
import Mathlib.Data.List.GetD

/-! # C104: profiles given as a callable (`set_profile`) -/
namespace Verif.Profiles
open Verif Verif.Partition

/-- specification: a full-grid or half-grid surface of one of the stages -/
def isGridPoint (stages : List Int) (s : ℝ) : Prop :=
  ∃ ns ∈ stages, (∃ j : Int, 0 ≤ j ∧ j < ns ∧ s = sFull ns j) ∨ ∃ j : Int, 0 ≤ j ∧ j < ns - 1 ∧ s = sHalf ns j

theorem half_shift (ns i : Int) (h : 2 ≤ ns) :
    linspace01 ns i - 1 / 2 * (linspace01 ns 1 - linspace01 ns 0) = sHalf ns (i - 1) := by
  have hn : (0 : ℝ) < (ns : ℝ) - 1 := by
    have : (2 : ℝ) ≤ (ns : ℝ) := by exact_mod_cast h
    linarith
  unfold linspace01 sHalf
  push_cast
  field_simp
  ring

theorem mem_stage (ns : Int) (h : 2 ≤ ns) (s : Finset ℝ) : ∃ s', stageUpdate ns s = .ok s' ∧
    ∀ x, x ∈ s' ↔ x ∈ s ∨ (∃ j : Int, 0 ≤ j ∧ j < ns ∧ x = sFull ns j) ∨ ∃ j : Int, -1 ≤ j ∧ j < ns - 1 ∧ x = sHalf ns j := by
  refine ⟨_, by unfold stageUpdate; rw [if_neg (by omega), if_neg (by omega)], fun x => ?_⟩
  simp only [Finset.mem_union, Finset.mem_image, Finset.mem_Ico, half_shift ns _ h, or_assoc]
  refine or_congr Iff.rfl (or_congr ?_ ?_)
  · exact ⟨fun ⟨j, hj, e⟩ => ⟨j, hj.1, hj.2, e.symm⟩, fun ⟨j, a, b, e⟩ => ⟨j, ⟨a, b⟩, e.symm⟩⟩
  · exact ⟨fun ⟨j, hj, e⟩ => ⟨j - 1, by omega, by omega, e.symm⟩,
      fun ⟨j, a, b, e⟩ => ⟨j + 1, ⟨by omega, by omega⟩, by rw [e]; congr 1; ring⟩⟩

theorem mem_grid (l : List Int) (hl : ∀ ns ∈ l, 2 ≤ ns) (s : Finset ℝ) : ∃ s', gridPoints l s = .ok s' ∧
    ∀ x, x ∈ s' ↔ x ∈ s ∨ ∃ ns ∈ l, (∃ j : Int, 0 ≤ j ∧ j < ns ∧ x = sFull ns j) ∨
      ∃ j : Int, -1 ≤ j ∧ j < ns - 1 ∧ x = sHalf ns j := by
  induction l generalizing s with
  | nil => exact ⟨s, rfl, by simp⟩
  | cons ns l ih =>
    obtain ⟨s1, e1, m1⟩ := mem_stage ns (hl ns List.mem_cons_self) s
    obtain ⟨s2, e2, m2⟩ := ih (fun n hn => hl n (List.mem_cons_of_mem _ hn)) s1
    refine ⟨s2, by unfold gridPoints; rw [e1]; exact e2, fun x => ?_⟩
    rw [m2, m1]
    simp only [List.mem_cons, exists_eq_or_imp, or_assoc]

theorem sortedKnots_increasing (s : Finset ℝ) : Increasing (sortedKnots s) := by
  intro i j h0 hij hj
  simp only [sortedKnots] at hj ⊢
  have hlen : (s.sort (· ≤ ·)).length = s.card := Finset.length_sort _
  have hi' : i.toNat < (s.sort (· ≤ ·)).length := by omega
  have hj' : j.toNat < (s.sort (· ≤ ·)).length := by omega
  rw [List.getD_eq_getElem _ _ hi', List.getD_eq_getElem _ _ hj']
  exact (Finset.sortedLT_sort s).pairwise.rel_get_of_lt (a := ⟨_, hi'⟩) (b := ⟨_, hj'⟩) (by
    show i.toNat < j.toNat
    omega)

theorem sortedKnots_mem (s : Finset ℝ) (x : ℝ) : x ∈ s ↔ ∃ i, 0 ≤ i ∧ i < (sortedKnots s).n ∧ (sortedKnots s).v i = x := by
  have hlen : (s.sort (· ≤ ·)).length = s.card := Finset.length_sort _
  rw [← Finset.mem_sort (· ≤ ·), List.mem_iff_getElem]
  simp only [sortedKnots]
  constructor
  · rintro ⟨i, hi, e⟩
    refine ⟨i, by omega, by omega, ?_⟩
    rw [Int.toNat_natCast, List.getD_eq_getElem _ _ hi]; exact e
  · rintro ⟨i, h0, hi, e⟩
    refine ⟨i.toNat, by omega, ?_⟩
    rw [List.getD_eq_getElem _ _ (by omega)] at e
    exact e

/-- **C104**: with at least two surfaces in every stage the function succeeds for the three fields. The knots are strictly
    increasing; they are the surfaces of all stages and one more point below the axis for every stage. The values are
    those of `f`; the two other profiles and the stages stay as they are. -/
theorem C104_knots (inp : ProfileInput) (hl : ∀ ns ∈ inp.ns_array, 2 ≤ ns) (f : ℝ → ℝ) :
    ∃ k y c : RVec, Increasing k ∧ c.n = 0 ∧ y.n = k.n ∧ (∀ i, y.v i = f (k.v i)) ∧
      (∀ x, (∃ i, 0 ≤ i ∧ i < k.n ∧ k.v i = x) ↔
        isGridPoint inp.ns_array x ∨ ∃ ns ∈ inp.ns_array, x = -(1 / (2 * (ns - 1)) : ℝ)) ∧
      setProfile inp "pressure" f = .ok { inp with pmass := ⟨"line_segment", c, k, y⟩ } ∧
      setProfile inp "iota" f = .ok { inp with piota := ⟨"line_segment", c, k, y⟩ } ∧
      setProfile inp "current" f = .ok { inp with pcurr := ⟨"line_segment_i", c, k, y⟩ } := by
  obtain ⟨s, e, m⟩ := mem_grid inp.ns_array hl ∅
  refine ⟨sortedKnots s, ⟨(sortedKnots s).n, fun i => f ((sortedKnots s).v i)⟩, ⟨0, fun _ => 0⟩, sortedKnots_increasing s, rfl, rfl,
    fun i => rfl, fun x => ?_, ?_, ?_, ?_⟩
  · rw [← sortedKnots_mem, m]
    simp only [Finset.notMem_empty, false_or]
    unfold isGridPoint
    constructor
    · rintro ⟨ns, hn, h | ⟨j, a, b, h⟩⟩
      · exact Or.inl ⟨ns, hn, Or.inl h⟩
      · by_cases hj : 0 ≤ j
        · exact Or.inl ⟨ns, hn, Or.inr ⟨j, hj, b, h⟩⟩
        · refine Or.inr ⟨ns, hn, ?_⟩
          have : j = -1 := by omega
          have h2 : (2 : ℝ) ≤ (ns : ℝ) := by exact_mod_cast hl ns hn
          have h3 : (ns : ℝ) - 1 ≠ 0 := by linarith
          rw [h, this]; unfold sHalf; push_cast; field_simp; norm_num
    · rintro (⟨ns, hn, h | ⟨j, a, b, h⟩⟩ | ⟨ns, hn, h⟩)
      · exact ⟨ns, hn, Or.inl h⟩
      · exact ⟨ns, hn, Or.inr ⟨j, by omega, b, h⟩⟩
      · refine ⟨ns, hn, Or.inr ⟨-1, le_rfl, by have := hl ns hn; omega, ?_⟩⟩
        have h2 : (2 : ℝ) ≤ (ns : ℝ) := by exact_mod_cast hl ns hn
        have h3 : (ns : ℝ) - 1 ≠ 0 := by linarith
        rw [h]; unfold sHalf; push_cast; field_simp; norm_num
  · unfold setProfile; rw [e]; rfl
  · unfold setProfile; rw [e]; rfl
  · unfold setProfile; rw [e]; rfl

/-- **C104**: a stage with fewer than two surfaces, or another field name, raises -/
theorem C104_refused (inp : ProfileInput) (field : String) (f : ℝ → ℝ)
    (h : (∃ ns ∈ inp.ns_array, ns < 2) ∨ (field ≠ "pressure" ∧ field ≠ "iota" ∧ field ≠ "current")) :
    ∃ m, setProfile inp field f = .throws m := by
  have key : ∀ (l : List Int) (s : Finset ℝ), (∃ ns ∈ l, ns < 2) → ∃ m, gridPoints l s = .throws m := by
    intro l
    induction l with
    | nil => rintro s ⟨ns, h, _⟩; cases h
    | cons n l ih =>
      rintro s ⟨ns, h, hlt⟩
      by_cases hn : 2 ≤ n
      · obtain ⟨s', e, _⟩ := mem_stage n hn s
        have : ∃ ns ∈ l, ns < 2 := by
          rcases List.mem_cons.1 h with rfl | h'
          · omega
          · exact ⟨ns, h', hlt⟩
        obtain ⟨m, hm⟩ := ih s' this
        exact ⟨m, by unfold gridPoints; rw [e]; exact hm⟩
      · by_cases h0 : n < 0
        · exact ⟨"ValueError: Number of samples must be non-negative", by
            unfold gridPoints stageUpdate; rw [if_pos h0]; rfl⟩
        · exact ⟨"IndexError", by unfold gridPoints stageUpdate; rw [if_neg h0, if_pos (by omega)]; rfl⟩
  by_cases hs : ∃ ns ∈ inp.ns_array, ns < 2
  · obtain ⟨m, hm⟩ := key _ ∅ hs
    exact ⟨m, by unfold setProfile; rw [hm]; rfl⟩
  · obtain ⟨s, e, _⟩ := mem_grid inp.ns_array (fun ns hn => by by_contra hc; exact hs ⟨ns, hn, by omega⟩) ∅
    obtain ⟨h1, h2, h3⟩ := h.resolve_left hs
    exact ⟨"ValueError: field must be one of 'pressure', 'iota', 'current'", by
      unfold setProfile; rw [e]
      show (if _ then _ else _) = _
      rw [if_neg h1, if_neg h2, if_neg h3]⟩

theorem name_pressure : findParameterization "line_segment" .pressure = 16 := by decide +kernel
theorem name_iota : findParameterization "line_segment" .iota = 16 := by decide +kernel
theorem name_current : findParameterization "line_segment_i" .current = 17 := by decide +kernel

/-- a grid point lies between axis and boundary -/
theorem grid_unit {l : List Int} (hl : ∀ ns ∈ l, 2 ≤ ns) {s : ℝ} (h : isGridPoint l s) : 0 ≤ s ∧ s ≤ 1 := by
  obtain ⟨ns, hn, h⟩ := h
  have h2 : (2 : ℝ) ≤ (ns : ℝ) := by exact_mod_cast hl ns hn
  have h3 : (0 : ℝ) < (ns : ℝ) - 1 := by linarith
  rcases h with ⟨j, a, b, rfl⟩ | ⟨j, a, b, rfl⟩
  · have ha : (0 : ℝ) ≤ (j : ℝ) := by exact_mod_cast a
    have hb : (j : ℝ) ≤ (ns : ℝ) - 1 := by exact_mod_cast (by omega : j ≤ ns - 1)
    exact ⟨by unfold sFull; positivity, by unfold sFull; rw [div_le_one h3]; exact hb⟩
  · have ha : (0 : ℝ) ≤ (j : ℝ) := by exact_mod_cast a
    have hb : (j : ℝ) ≤ (ns : ℝ) - 1 - 1 := by exact_mod_cast (by omega : j ≤ ns - 1 - 1)
    exact ⟨by unfold sHalf; positivity, by unfold sHalf; rw [div_le_one h3]; linarith⟩

/-- **C104**: on every surface of every stage the solver's profile functions return the value of `f` there, without any
    interpolation error. Missing (see the failures below): positions off the grid, from a flux polynomial, a bloating
    factor, a pedestal or rounding. -/
theorem C104_exact_partial (inp : ProfileInput) (hl : ∀ ns ∈ inp.ns_array, 2 ≤ ns) (f : ℝ → ℝ) (q : Quadrature) :
    ∃ a b c : ProfileInput, setProfile inp "pressure" f = .ok a ∧ setProfile inp "iota" f = .ok b ∧
      setProfile inp "current" f = .ok c ∧ ∀ s, isGridPoint inp.ns_array s → ∀ scale : ℝ,
        evalMassProfile q a.pmass 1 scale s = .ok (f s * scale) ∧ evalIotaProfile q b.piota s = .ok (f s) ∧
        evalCurrProfile q c.pcurr 1 s = .ok (f s) := by
  obtain ⟨k, y, c, hk, _, hy, hv, hx, e1, e2, e3⟩ := C104_knots inp hl f
  refine ⟨_, _, _, e1, e2, e3, fun s hs scale => ?_⟩
  obtain ⟨u0, u1⟩ := grid_unit hl hs
  have hn : 2 ≤ k.n := by
    obtain ⟨ns, hns, _⟩ := id hs
    have m1 := (hx (sFull ns 0)).2 (Or.inl ⟨ns, hns, Or.inl ⟨0, le_rfl, by have := hl ns hns; omega, rfl⟩⟩)
    have m2 := (hx (sHalf ns 0)).2 (Or.inl ⟨ns, hns, Or.inr ⟨0, le_rfl, by have := hl ns hns; omega, rfl⟩⟩)
    obtain ⟨i1, a1, b1, c1⟩ := m1
    obtain ⟨i2, a2, b2, c2⟩ := m2
    have : i1 ≠ i2 := by
      rintro rfl
      rw [c1] at c2
      have h2 : (2 : ℝ) ≤ (ns : ℝ) := by exact_mod_cast hl ns hns
      have h3 : (0 : ℝ) < (ns : ℝ) - 1 := by linarith
      have p : 0 < sHalf ns 0 := by unfold sHalf; push_cast; positivity
      rw [← c2] at p
      unfold sFull at p
      simp at p
    omega
  obtain ⟨i, i0, i1, ei⟩ := (hx s).2 (Or.inl hs)
  have ev : evalLineSegment k y s = f s := by
    rw [← ei, (C31_knots_and_clamp_partial k y hk hn hy).1 i i0 i1, hv]
  have em : min |s * 1| 1 = s := by rw [mul_one, abs_of_nonneg u0, min_eq_left u1]
  refine ⟨?_, ?_, ?_⟩
  · unfold evalMassProfile
    rw [name_pressure, em]
    simp only [evalProfileFunction, ev, Outcome.bind_ok, Outcome.pure_eq]
  · unfold evalIotaProfile
    rw [name_iota]
    simp only [evalProfileFunction, ev]
  · unfold evalCurrProfile
    rw [name_current, em]
    simp only [evalProfileFunction, ev]

def profileExample : ProfileInput :=
  ⟨[5, 9], ⟨"power_series", ⟨0, fun _ => 0⟩, ⟨0, fun _ => 0⟩, ⟨0, fun _ => 0⟩⟩, ⟨"power_series", ⟨0, fun _ => 0⟩, ⟨0, fun _ => 0⟩, ⟨0, fun _ => 0⟩⟩,
    ⟨"power_series", ⟨0, fun _ => 0⟩, ⟨0, fun _ => 0⟩, ⟨0, fun _ => 0⟩⟩⟩
example : ∀ ns ∈ profileExample.ns_array, 2 ≤ ns := by decide
example : isGridPoint profileExample.ns_array (3 / 8) :=
  ⟨5, by decide, Or.inr ⟨1, by norm_num, by norm_num, by unfold sHalf; norm_num⟩⟩

/-- **C104**: the callable is asked for a value outside of the plasma, once for every stage -/
theorem C104_outside (inp : ProfileInput) (hl : ∀ ns ∈ inp.ns_array, 2 ≤ ns) (f : ℝ → ℝ) (ns : Int) (h : ns ∈ inp.ns_array) :
    ∃ a, setProfile inp "pressure" f = .ok a ∧
      ∃ i, 0 ≤ i ∧ i < a.pmass.knots.n ∧ a.pmass.knots.v i < 0 ∧ ¬ isGridPoint inp.ns_array (a.pmass.knots.v i) ∧
        a.pmass.values.v i = f (a.pmass.knots.v i) := by
  obtain ⟨k, y, c, hk, _, hy, hv, hx, e1, _, _⟩ := C104_knots inp hl f
  obtain ⟨i, i0, i1, ei⟩ := (hx _).2 (Or.inr ⟨ns, h, rfl⟩)
  have h2 : (2 : ℝ) ≤ (ns : ℝ) := by exact_mod_cast hl ns h
  have h3 : (0 : ℝ) < (ns : ℝ) - 1 := by linarith
  have hneg : k.v i < 0 := by rw [ei]; have : (0 : ℝ) < 1 / (2 * ((ns : ℝ) - 1)) := by positivity
                              linarith
  exact ⟨_, e1, i, i0, i1, hneg, fun hg => by have := (grid_unit hl hg).1; simp only at this; linarith, hv i⟩

/-- **C104**: the arrays the solver starts from, for a flux proportional to the position (`aphi = [1]`), no bloating, no
    pedestal: the mass profile is `f` up to the documented factors, iota is `f` on both grids, for every team -/
theorem C104_arrays (inp : ProfileInput) (hl : ∀ ns ∈ inp.ns_array, 2 ≤ ns) (fp fi : ℝ → ℝ) (q : Quadrature)
    (I : RadialIn) (hI : I.ns ∈ inp.ns_array) (ha : ∀ x, fluxPoly I.aphi x = x) (hped : 1 ≤ I.spres_ped) (scale : ℝ)
    (hm : ∀ a, setProfile inp "pressure" fp = .ok a → ∀ x, evalMassProfile q a.pmass 1 scale x = .ok (I.massP x))
    (hi : ∀ a, setProfile inp "iota" fi = .ok a → ∀ x, evalIotaProfile q a.piota x = .ok (I.iotaP x))
    (lfreeb : Bool) (nt : Int) (R : Int → Ranges) (v : Solver) (hnt : 1 ≤ nt) (hT : Team nt I.ns lfreeb R) (t : Int)
    (ht : isThread nt t) :
    let a := (initProfiles I false nt R v).p t
    (∀ j, holdsHalf (R t) j → 0 ≤ j → j < I.ns - 1 →
      a.massH (j - (R t).nsMinH) = fp (sHalf I.ns j) * scale * (|deriv I.phi (sHalf I.ns j)| * I.r00) ^ I.gamma ∧
      a.iotaH (j - (R t).nsMinH) = fi (sHalf I.ns j)) ∧
    (∀ j, holds (R t) j → 0 ≤ j → j < I.ns → a.iotaF (j - (R t).nsMinF1) = fi (sFull I.ns j)) := by
  intro a
  have hns := hl _ hI
  have hpoly : poly I.aphi 1 ≠ 0 := by
    have := ha 1
    unfold fluxPoly at this
    rw [one_mul] at this
    rw [this]; exact one_ne_zero
  have hlab : ∀ x, x ≤ 1 → I.label x = x := by
    intro x hx
    unfold RadialIn.label
    rw [ha, if_pos hx]
  obtain ⟨A, _, _, eA, _, _, hA⟩ := C104_exact_partial inp hl fp q
  obtain ⟨_, B, _, _, eB, _, hB⟩ := C104_exact_partial inp hl fi q
  have mP : ∀ s, isGridPoint inp.ns_array s → I.massP s = fp s * scale := by
    intro s hs
    have h1 := hm A eA s
    rw [(hA s hs scale).1] at h1
    exact (Outcome.ok.inj h1).symm
  have iP : ∀ s, isGridPoint inp.ns_array s → I.iotaP s = fi s := by
    intro s hs
    have h1 := hi B eB s
    rw [(hB s hs 0).2.1] at h1
    exact (Outcome.ok.inj h1).symm
  refine ⟨fun j hj j0 j1 => ?_, fun j hj j0 j1 => ?_⟩
  · obtain ⟨_, _, h3, _, _, h6⟩ := C102_half_grid I false lfreeb nt R v hns hnt hT hpoly t ht j hj
    have hg : isGridPoint inp.ns_array (sHalf I.ns j) := ⟨I.ns, hI, Or.inr ⟨j, j0, j1, rfl⟩⟩
    have hu := (grid_unit hl hg).2
    rw [min_eq_left (hu.trans hped), hlab _ hu, mP _ hg] at h6
    rw [hlab _ hu, iP _ hg] at h3
    exact ⟨h6, by simpa using h3⟩
  · obtain ⟨_, _, h3, _⟩ := C102_full_grid I false lfreeb nt R v hns hnt hT hpoly t ht j hj
    have hg : isGridPoint inp.ns_array (sFull I.ns j) := ⟨I.ns, hI, Or.inl ⟨j, j0, j1, rfl⟩⟩
    rw [hlab _ (grid_unit hl hg).2, iP _ hg] at h3
    exact h3

/-- the coefficients `aphi = [1]` meet the hypothesis -/
example : ∀ x, fluxPoly ⟨1, fun _ => 1⟩ x = x := by
  intro x; unfold fluxPoly poly; simp

end Verif.Profiles
