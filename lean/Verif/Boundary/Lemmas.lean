import Verif.Boundary.Spec
import Mathlib.Tactic.LinearCombination
import Mathlib.Algebra.BigOperators.Ring.Finset
import Mathlib.Algebra.BigOperators.Group.Finset.Sigma

namespace Verif.Boundary
open Verif Finset

/-- the shifted coefficients -/
noncomputable def rbcS (s : Size) (id : Indata) (d : ℝ) (m n : Int) : ℝ :=
  if s.lasym then id.rbc m (s.ntor + n) * Real.cos (m * d) + id.rbs m (s.ntor + n) * Real.sin (m * d)
  else id.rbc m (s.ntor + n)
noncomputable def zbsS (s : Size) (id : Indata) (d : ℝ) (m n : Int) : ℝ :=
  if s.lasym then id.zbs m (s.ntor + n) * Real.cos (m * d) - id.zbc m (s.ntor + n) * Real.sin (m * d)
  else id.zbs m (s.ntor + n)
noncomputable def rbsS (s : Size) (id : Indata) (d : ℝ) (m n : Int) : ℝ :=
  id.rbs m (s.ntor + n) * Real.cos (m * d) - id.rbc m (s.ntor + n) * Real.sin (m * d)
noncomputable def zbcS (s : Size) (id : Indata) (d : ℝ) (m n : Int) : ℝ :=
  id.zbc m (s.ntor + n) * Real.cos (m * d) + id.zbs m (s.ntor + n) * Real.sin (m * d)

/-- what one pass adds to the element `(m, |n|)` of each array -/
noncomputable def gain (s : Size) (id : Indata) (d : ℝ) (m n : Int) : B → ℝ
  | .rbcc => rbcS s id d m n
  | .zbsc => if m > 0 then zbsS s id d m n else 0
  | .rbss => if s.lthreed then if m > 0 then (signum n : ℝ) * rbcS s id d m n else 0 else 0
  | .zbcs => if s.lthreed then -((signum n : ℝ) * zbsS s id d m n) else 0
  | .rbsc => if s.lasym then if m > 0 then rbsS s id d m n else 0 else 0
  | .zbcc => if s.lasym then zbcS s id d m n else 0
  | .rbcs => if s.lasym then if s.lthreed then -((signum n : ℝ) * rbsS s id d m n) else 0 else 0
  | .zbss => if s.lasym then if s.lthreed then
      if m > 0 then (signum n : ℝ) * zbcS s id d m n else 0 else 0 else 0

theorem parseMode_gain (s : Size) (id : Indata) (d : ℝ) (m n : Int) (a : Arrays) (c : B) (i : Int) :
    parseMode s id d m n a c i
      = a c i + if i = m * (s.ntor + 1) + |n| then gain s id d m n c else 0 := by
  by_cases hd : d = 0
  · unfold parseMode
    by_cases h3 : s.lthreed <;> by_cases hl : s.lasym <;> by_cases hm : m > 0 <;> cases c <;>
      simp [hd, h3, hl, hm, addTo_apply, gain, rbcS, zbsS, rbsS, zbcS]
  · unfold parseMode
    by_cases h3 : s.lthreed <;> by_cases hl : s.lasym <;> by_cases hm : m > 0 <;> cases c <;>
      simp [hd, h3, hl, hm, addTo_apply, gain, rbcS, zbsS, rbsS, zbcS]

theorem parse_eq (s : Size) (id : Indata) (c : B) (i : Int) :
    parseToInternalArrays s id c i
      = ∑ m ∈ Ico 0 s.mpol, ∑ n ∈ Ico (-s.ntor) (s.ntor + 1),
          if i = m * (s.ntor + 1) + |n| then gain s id (delta s id) m n c else 0 := by
  unfold parseToInternalArrays
  rw [forRange_addAll _ (fun m c i => ∑ n ∈ Ico (-s.ntor) (s.ntor + 1),
          if i = m * (s.ntor + 1) + |n| then gain s id (delta s id) m n c else 0)]
  · simp
  · intro m a c i _ _
    rw [forRange_addAll _ (fun n c i =>
          if i = m * (s.ntor + 1) + |n| then gain s id (delta s id) m n c else 0)]
    intro n a c i _ _
    exact parseMode_gain s id _ m n a c i

/-- reading back the scattered coefficients against any weights -/
theorem scatter (mpol ntor : Int) (w g : Int → Int → ℝ) :
    (∑ m ∈ Ico 0 mpol, ∑ n ∈ Ico 0 (ntor + 1), w m n *
        ∑ m' ∈ Ico 0 mpol, ∑ n' ∈ Ico (-ntor) (ntor + 1),
          if m * (ntor + 1) + n = m' * (ntor + 1) + |n'| then g m' n' else 0)
      = ∑ m ∈ Ico 0 mpol, ∑ n ∈ Ico (-ntor) (ntor + 1), w m |n| * g m n := by
  have h1 : ∀ m ∈ Ico 0 mpol, ∀ n ∈ Ico 0 (ntor + 1),
      (w m n * ∑ m' ∈ Ico 0 mpol, ∑ n' ∈ Ico (-ntor) (ntor + 1),
          if m * (ntor + 1) + n = m' * (ntor + 1) + |n'| then g m' n' else 0)
        = ∑ n' ∈ Ico (-ntor) (ntor + 1), if n = |n'| then w m n * g m n' else 0 := by
    intro m hm n hn
    rw [mem_Ico] at hm hn
    rw [Finset.sum_eq_single m]
    · rw [mul_sum]
      refine sum_congr rfl fun n' hn' => ?_
      rw [mem_Ico] at hn'
      have : (m * (ntor + 1) + n = m * (ntor + 1) + |n'|) ↔ n = |n'| := by omega
      simp only [this, mul_ite, mul_zero]
    · intro m' hm' hne
      refine sum_eq_zero fun n' hn' => ?_
      rw [mem_Ico] at hn'
      rw [if_neg]
      intro he
      have hab : |n'| < ntor + 1 := by rw [abs_lt]; omega
      exact hne (flat_inj hn.1 hn.2 (abs_nonneg _) hab he).1.symm
    · intro h; exact absurd (mem_Ico.mpr hm) h
  refine sum_congr rfl fun m hm => ?_
  rw [sum_congr rfl (h1 m hm), sum_comm]
  refine sum_congr rfl fun n' hn' => ?_
  rw [mem_Ico] at hn'
  have hab : |n'| < ntor + 1 := by rw [abs_lt]; omega
  rw [Finset.sum_eq_single |n'|]
  · simp
  · intro n _ hne; simp [hne]
  · intro h; exact absurd (mem_Ico.mpr ⟨abs_nonneg _, hab⟩) h

theorem part_parse (s : Size) (id : Indata) (θ ζ : ℝ) (c : B) :
    part s (parseToInternalArrays s id) θ ζ c
      = if s.has c then ∑ m ∈ Ico 0 s.mpol, ∑ n ∈ Ico (-s.ntor) (s.ntor + 1),
          basis c m |n| θ ζ * gain s id (delta s id) m n c else 0 := by
  unfold part
  split
  · rw [← scatter s.mpol s.ntor (fun m n => basis c m n θ ζ)
      (fun m n => gain s id (delta s id) m n c)]
    simp only [parse_eq]
  · rfl

theorem delta_sym (s : Size) (id : Indata) (h : s.lasym = false) : delta s id = 0 := by
  simp [delta, h]

theorem signum_cases (n : Int) : (n < 0 ∧ signum n = -1 ∧ |n| = -n) ∨ (n = 0 ∧ signum n = 0 ∧ |n| = n)
    ∨ (0 < n ∧ signum n = 1 ∧ |n| = n) := by
  unfold signum
  rcases lt_trichotomy n 0 with h | h | h
  · left; exact ⟨h, by simp [h, not_lt.mpr h.le], abs_of_neg h⟩
  · right; left; simp [h]
  · right; right; exact ⟨h, by simp [h, not_lt.mpr h.le], abs_of_pos h⟩

theorem modeR (s : Size) (id : Indata) (θ ζ : ℝ) (m n : Int) (hm : 0 ≤ m) (h1 : -s.ntor ≤ n) (h2 : n ≤ s.ntor) :
    ((if s.has .rbcc then basis .rbcc m |n| θ ζ * gain s id (delta s id) m n .rbcc else 0)
      + (if s.has .rbss then basis .rbss m |n| θ ζ * gain s id (delta s id) m n .rbss else 0)
      + (if s.has .rbsc then basis .rbsc m |n| θ ζ * gain s id (delta s id) m n .rbsc else 0)
      + (if s.has .rbcs then basis .rbcs m |n| θ ζ * gain s id (delta s id) m n .rbcs else 0))
    = (id.rbc m (s.ntor + n) * Real.cos (m * (θ + delta s id) - n * ζ) +
      if s.lasym then id.rbs m (s.ntor + n) * Real.sin (m * (θ + delta s id) - n * ζ) else 0) := by
  have hn0 : s.lthreed = false → n = 0 := by
    intro h; simp [Size.lthreed] at h; omega
  have hsym := delta_sym s id
  generalize delta s id = d at *
  have e : (m : ℝ) * (θ + d) - n * ζ = (m * θ - n * ζ) + m * d := by ring
  rw [e, Real.cos_add, Real.sin_add, Real.cos_sub, Real.sin_sub]
  rcases signum_cases n with ⟨hn, hs, ha⟩ | ⟨hn, hs, ha⟩ | ⟨hn, hs, ha⟩ <;>
  (by_cases h3 : s.lthreed) <;> by_cases hl : s.lasym <;> rcases hm.eq_or_lt.imp_left Eq.symm with hm' | hm' <;>
  first
  | (exfalso; have := hn0 (by simpa using h3); omega)
  | (
     simp [Size.has, h3, hl, gain, rbcS, rbsS, basis, hs, ha, hn, hm', neg_mul, Real.sin_neg, Real.cos_neg, hsym]
     try ring)

theorem modeZ (s : Size) (id : Indata) (θ ζ : ℝ) (m n : Int) (hm : 0 ≤ m) (h1 : -s.ntor ≤ n) (h2 : n ≤ s.ntor) :
    ((if s.has .zbsc then basis .zbsc m |n| θ ζ * gain s id (delta s id) m n .zbsc else 0)
      + (if s.has .zbcs then basis .zbcs m |n| θ ζ * gain s id (delta s id) m n .zbcs else 0)
      + (if s.has .zbcc then basis .zbcc m |n| θ ζ * gain s id (delta s id) m n .zbcc else 0)
      + (if s.has .zbss then basis .zbss m |n| θ ζ * gain s id (delta s id) m n .zbss else 0))
    = (id.zbs m (s.ntor + n) * Real.sin (m * (θ + delta s id) - n * ζ) +
      if s.lasym then id.zbc m (s.ntor + n) * Real.cos (m * (θ + delta s id) - n * ζ) else 0) := by
  have hn0 : s.lthreed = false → n = 0 := by
    intro h; simp [Size.lthreed] at h; omega
  have hsym := delta_sym s id
  generalize delta s id = d at *
  have e : (m : ℝ) * (θ + d) - n * ζ = (m * θ - n * ζ) + m * d := by ring
  rw [e, Real.cos_add, Real.sin_add, Real.cos_sub, Real.sin_sub]
  rcases signum_cases n with ⟨hn, hs, ha⟩ | ⟨hn, hs, ha⟩ | ⟨hn, hs, ha⟩ <;>
  (by_cases h3 : s.lthreed) <;> by_cases hl : s.lasym <;> rcases hm.eq_or_lt.imp_left Eq.symm with hm' | hm' <;>
  first
  | (exfalso; have := hn0 (by simpa using h3); omega)
  | (
     simp [Size.has, h3, hl, gain, zbsS, zbcS, basis, hs, ha, hn, hm', neg_mul, Real.sin_neg, Real.cos_neg, hsym]
     try ring)

/-! ## flip -/

def flipSign (m : Int) : B → ℝ
  | .rbcc | .zbcs | .zbcc | .rbcs => if m.tmod 2 = 0 then 1 else -1
  | .zbsc | .rbss | .rbsc | .zbss => -(if m.tmod 2 = 0 then 1 else -1)

theorem flipMode_apply (s : Size) (m n : Int) (a : Arrays) (c : B) (i : Int) :
    flipMode s m n a c i
      = if i = m * (s.ntor + 1) + n ∧ s.has c then a c i * flipSign m c else a c i := by
  unfold flipMode
  by_cases h3 : s.lthreed <;> by_cases hl : s.lasym <;> cases c <;>
    by_cases hi : i = m * (s.ntor + 1) + n <;>
    simp [h3, hl, put_apply, Size.has, flipSign, hi]

theorem flip_apply (s : Size) (a : Arrays) (c : B) (m n : Int) (h1 : 0 ≤ n) (h2 : n ≤ s.ntor) :
    flipTheta s a c (m * (s.ntor + 1) + n)
      = if s.has c ∧ 1 ≤ m ∧ m < s.mpol then a c (m * (s.ntor + 1) + n) * flipSign m c
        else a c (m * (s.ntor + 1) + n) := by
  have inner : ∀ (m' : Int) (a : Arrays),
      forRange 0 (s.ntor + 1) (fun n a => flipMode s m' n a) a c (m * (s.ntor + 1) + n)
      = if m' = m ∧ s.has c then a c (m * (s.ntor + 1) + n) * flipSign m c
        else a c (m * (s.ntor + 1) + n) := by
    intro m' a
    rw [forRange_apply _ c _ (fun n' x => if m * (s.ntor + 1) + n = m' * (s.ntor + 1) + n' ∧ s.has c
        then x * flipSign m' c else x) (fun j a => flipMode_apply s m' j a c _)]
    by_cases hm : m' = m
    · subst hm
      rw [forRange_only (j0 := n) h1 (by omega)]
      · simp
      · intro j x _ _ hj
        rw [if_neg]; rintro ⟨h, _⟩; omega
    · rw [forRange_none]
      · simp [hm]
      · intro j x hj hj'
        rw [if_neg]; rintro ⟨h, _⟩
        exact hm (flat_inj h1 (by omega) hj hj' h).1.symm
  unfold flipTheta
  rw [forRange_apply _ c _ (fun m' x => if m' = m ∧ s.has c then x * flipSign m c else x) inner]
  by_cases hm : 1 ≤ m ∧ m < s.mpol
  · rw [forRange_only (j0 := m) hm.1 hm.2]
    · simp [hm]
    · intro j x _ _ hj; simp [hj]
  · rw [forRange_none]
    · rw [if_neg]; rintro ⟨_, h⟩; exact hm h
    · intro j x hj hj'
      rw [if_neg]; rintro ⟨h, _⟩; omega

theorem cos_refl (m : Int) (θ : ℝ) : Real.cos (m * (Real.pi - θ)) = (if m.tmod 2 = 0 then 1 else -1) * Real.cos (m * θ) := by
  have : (m : ℝ) * (Real.pi - θ) = m * Real.pi - m * θ := by ring
  rw [this, Real.cos_sub, Real.sin_int_mul_pi, zero_mul, add_zero]
  congr 1
  rcases Int.emod_two_eq_zero_or_one m with h | h
  · obtain ⟨k, hk⟩ := Int.dvd_of_emod_eq_zero h
    have ht : m.tmod 2 = 0 := Int.tmod_eq_zero_of_dvd ⟨k, hk⟩
    rw [if_pos ht, hk]
    push_cast
    rw [show (2 : ℝ) * k * Real.pi = k * (2 * Real.pi) by ring, Real.cos_int_mul_two_pi]
  · have ht : ¬ m.tmod 2 = 0 := by
      intro h'; have := Int.dvd_of_tmod_eq_zero h'; omega
    obtain ⟨k, hk⟩ : ∃ k, m = 2 * k + 1 := ⟨m / 2, by omega⟩
    rw [if_neg ht, hk]
    push_cast
    rw [show ((2 : ℝ) * k + 1) * Real.pi = Real.pi + k * (2 * Real.pi) by ring, Real.cos_add_int_mul_two_pi, Real.cos_pi]

theorem sin_refl (m : Int) (θ : ℝ) : Real.sin (m * (Real.pi - θ)) = -(if m.tmod 2 = 0 then 1 else -1) * Real.sin (m * θ) := by
  have hc : Real.cos (m * Real.pi) = if m.tmod 2 = 0 then 1 else -1 := by
    have := cos_refl m 0; simpa using this
  have : (m : ℝ) * (Real.pi - θ) = m * Real.pi - m * θ := by ring
  rw [this, Real.sin_sub, Real.sin_int_mul_pi, zero_mul, zero_sub, hc, neg_mul]

theorem basis_refl (c : B) (m n : Int) (θ ζ : ℝ) :
    basis c m n (Real.pi - θ) ζ = flipSign m c * basis c m n θ ζ := by
  cases c <;> simp only [basis, flipSign, cos_refl, sin_refl] <;> ring

theorem flipSign_sq (m : Int) (c : B) : flipSign m c * flipSign m c = 1 := by
  cases c <;> simp only [flipSign] <;> split <;> norm_num

theorem part_flip (s : Size) (a : Arrays) (θ ζ : ℝ) (c : B)
    (h0 : ∀ n, 0 ≤ n → n ≤ s.ntor → flipSign 0 c = -1 → basis c 0 n θ ζ = 0) :
    part s (flipTheta s a) θ ζ c = part s a (Real.pi - θ) ζ c := by
  unfold part
  by_cases h : s.has c
  · simp only [h, if_true]
    refine sum_congr rfl fun m hm => sum_congr rfl fun n hn => ?_
    rw [mem_Ico] at hm hn
    rw [flip_apply s a c m n hn.1 (by omega), basis_refl]
    by_cases hm1 : 1 ≤ m
    · rw [if_pos ⟨h, hm1, hm.2⟩]; ring
    · have : m = 0 := by omega
      subst this
      rw [if_neg (by simp)]
      rcases (by cases c <;> simp [flipSign] : flipSign 0 c = 1 ∨ flipSign 0 c = -1) with e | e
      · rw [e]; ring
      · rw [h0 n hn.1 (by omega) e]; ring
  · simp [h]

/-! ## m = 1 -/

/-- the pair of arrays mixed by the m=1 constraint -/
def partner : B → Option B
  | .rbss => some .zbcs | .zbcs => some .rbss | .rbsc => some .zbcc | .zbcc => some .rbsc
  | _ => none

theorem m1Mode_apply (s : Size) (f : ℝ) (n : Int) (a : Arrays) (c : B) (i : Int) :
    m1Mode s f n a c i = if i = 1 * (s.ntor + 1) + n ∧ s.has c then
        match c with
        | .rbss => (a .rbss i + a .zbcs i) * f
        | .zbcs => (a .rbss i - a .zbcs i) * f
        | .rbsc => (a .rbsc i + a .zbcc i) * f
        | .zbcc => (a .rbsc i - a .zbcc i) * f
        | c => a c i
      else a c i := by
  unfold m1Mode
  by_cases h3 : s.lthreed <;> by_cases hl : s.lasym <;> cases c <;>
    by_cases hi : i = 1 * (s.ntor + 1) + n <;>
    simp_all [put_apply, Size.has]

/-- the transformation applied to all arrays at one position -/
noncomputable def mix (s : Size) (f : ℝ) (v : B → ℝ) : B → ℝ := fun c =>
  if s.has c then
    match c with
    | .rbss => (v .rbss + v .zbcs) * f
    | .zbcs => (v .rbss - v .zbcs) * f
    | .rbsc => (v .rbsc + v .zbcc) * f
    | .zbcc => (v .rbsc - v .zbcc) * f
    | c => v c
  else v c

theorem m1_apply (s : Size) (f : ℝ) (a : Arrays) (i : Int) :
    (fun c => ensureM1Constrained s f a c i)
      = if s.ntor + 1 ≤ i ∧ i < 2 * (s.ntor + 1) then mix s f (fun c => a c i) else fun c => a c i := by
  unfold ensureM1Constrained
  have := forRange_map (lo := 0) (hi := s.ntor + 1) (fun n a => m1Mode s f n a)
    (fun n (v : B → ℝ) => if i = 1 * (s.ntor + 1) + n then mix s f v else v) (fun a c => a c i)
    (by
      intro n a
      funext c
      rw [m1Mode_apply]
      by_cases hi : i = 1 * (s.ntor + 1) + n
      · simp only [hi, true_and, if_true, mix]
      · simp only [hi, false_and, if_false]) a
  rw [this]
  by_cases h : s.ntor + 1 ≤ i ∧ i < 2 * (s.ntor + 1)
  · rw [if_pos h, forRange_only (j0 := i - (s.ntor + 1)) (by omega) (by omega)]
    · rw [if_pos (by omega)]
    · intro j v _ _ hj; rw [if_neg (by omega)]
  · rw [if_neg h, forRange_none]
    intro j v hj hj'
    rw [if_neg (by omega)]

theorem mix_undo (s : Size) (f g : ℝ) (hfg : 2 * f * g = 1) (v : B → ℝ) : mix s g (mix s f v) = v := by
  funext c
  unfold mix
  by_cases h3 : s.lthreed <;> by_cases hl : s.lasym <;> cases c <;> simp [Size.has, h3, hl] <;>
    first
    | linear_combination v .rbss * hfg
    | linear_combination v .zbcs * hfg
    | linear_combination v .rbsc * hfg
    | linear_combination v .zbcc * hfg

end Verif.Boundary
