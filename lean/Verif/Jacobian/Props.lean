import Verif.Jacobian.Lemmas

/-!
# C22: the Jacobian sign check

Full statement: the team reports a bad Jacobian exactly if the field changes sign or is not finite
somewhere, whatever the number of threads.  It is false of the code for NaN that are not the first
non-zero value of a thread (`C22_nan_missed`), for surfaces on which the Jacobian is zero
everywhere (`C22_depends_on_threads`) and for products that underflow (`C22_underflow_missed`).
-/
namespace Verif.Jacobian
open Verif Verif.Partition

/-- a point of the half grid -/
def onGrid (ns nZnT j kl : Int) : Prop := (0 ≤ j ∧ j < ns - 1) ∧ (0 ≤ kl ∧ kl < nZnT)

/-- the field takes both signs -/
def ChangesSign (ns nZnT : Int) (g : Int → Int → D) : Prop :=
  (∃ j kl, onGrid ns nZnT j kl ∧ D.lt (g j kl) (.fin 0) = true) ∧
  (∃ j kl, onGrid ns nZnT j kl ∧ D.lt (.fin 0) (g j kl) = true)

variable {nt ns nZnT : Int} {lfreeb : Bool} {R : Int → Ranges} {g : Int → Int → D}

theorem onGrid_of_holds (hns : 2 ≤ ns) (hnt : 1 ≤ nt) (hT : Team nt ns lfreeb R) {t : Int}
    (ht : isThread nt t) {j kl : Int} (hj : holdsHalf (R t) j) (hkl : 0 ≤ kl ∧ kl < nZnT) :
    onGrid ns nZnT j kl := by
  have := (half_facts hns hnt hT).1 t ht
  exact ⟨⟨by have := hj.1; omega, by have := hj.2; omega⟩, hkl⟩

/-- No false alarms: for every field (zeros, infinities and NaN included, finite values up to
    `2^500` in magnitude) and every team, a reported bad Jacobian is a sign change or a
    non-finite value. -/
theorem C22_no_false_alarm (hns : 2 ≤ ns) (hz : 0 < nZnT) (hnt : 1 ≤ nt) (hT : Team nt ns lfreeb R)
    (hm : ∀ j kl, onGrid ns nZnT j kl → ∀ q, g j kl = .fin q → |q| ≤ 2 ^ 500)
    (h : teamBad g nZnT nt R = true) :
    ChangesSign ns nZnT g ∨ ∃ j kl, onGrid ns nZnT j kl ∧ (g j kl).isFinite = false := by
  obtain ⟨t, ht, hb⟩ := (teamBad_iff (by omega)).1 h
  have hf := (half_facts hns hnt hT).1 t ht
  have hn : 0 ≤ ((R t).nsMaxH - (R t).nsMinH) * nZnT := Int.mul_nonneg (by omega) hz.le
  have hmod : ∀ i, 0 ≤ i → i < ((R t).nsMaxH - (R t).nsMinH) * nZnT → ∀ q,
      localTau g nZnT (R t) i = .fin q → |q| ≤ hi := by
    intro i h0 h1 q hq
    obtain ⟨j, kl, hj, hkl, e⟩ := local_index_inv hz g (R t) ⟨h0, h1⟩
    exact hm j kl (onGrid_of_holds hns hnt hT ht hj hkl) q (e ▸ hq)
  rcases localBad_inv hn _ hmod hb with ⟨i, i', hi, hi', h1, h2⟩ | ⟨i, hi, h1⟩
  · obtain ⟨j, kl, hj, hkl, e⟩ := local_index_inv hz g (R t) hi
    obtain ⟨j', kl', hj', hkl', e'⟩ := local_index_inv hz g (R t) hi'
    rw [e] at h1; rw [e'] at h2
    exact .inl ⟨⟨j, kl, onGrid_of_holds hns hnt hT ht hj hkl, h1⟩,
      ⟨j', kl', onGrid_of_holds hns hnt hT ht hj' hkl', h2⟩⟩
  · obtain ⟨j, kl, hj, hkl, e⟩ := local_index_inv hz g (R t) hi
    rw [e] at h1
    exact .inr ⟨j, kl, onGrid_of_holds hns hnt hT ht hj hkl, h1⟩

/-- Infinities are always reported, whatever else is in the field. -/
theorem C22_infinity_reported (hns : 2 ≤ ns) (hz : 0 < nZnT) (hnt : 1 ≤ nt)
    (hT : Team nt ns lfreeb R) {j kl : Int} (hj : onGrid ns nZnT j kl)
    (h : g j kl = .pinf ∨ g j kl = .ninf) : teamBad g nZnT nt R = true := by
  obtain ⟨t, ht, hh⟩ := (half_facts hns hnt hT).2.2 j hj.1.1 hj.1.2
  have hf := (half_facts hns hnt hT).1 t ht
  have hn : 0 ≤ ((R t).nsMaxH - (R t).nsMinH) * nZnT := Int.mul_nonneg (by omega) hz.le
  obtain ⟨i, hi, e⟩ := local_index hz g (R t) hh hj.2
  exact (teamBad_iff (by omega)).2 ⟨t, ht, localBad_of_inf hn _ hi (by rw [e]; exact h)⟩

/-- Sign changes are reported, for every team and even if NaN are around, provided that on every
    half-grid surface the Jacobian is non-zero (and a number) in at least one point, and magnitudes
    of non-zero values are between `2^-500` and `2^500`. -/
theorem C22_sign_change_reported_partial (hns : 2 ≤ ns) (hz : 0 < nZnT) (hnt : 1 ≤ nt)
    (hT : Team nt ns lfreeb R)
    (hm : ∀ j kl, onGrid ns nZnT j kl → ∀ q, g j kl = .fin q →
      q = 0 ∨ (1 / 2 ^ 500 ≤ |q| ∧ |q| ≤ 2 ^ 500))
    (hs : ∀ j, 0 ≤ j → j < ns - 1 → ∃ kl, (0 ≤ kl ∧ kl < nZnT) ∧
      (D.lt (g j kl) (.fin 0) = true ∨ D.lt (.fin 0) (g j kl) = true))
    (h : ChangesSign ns nZnT g) : teamBad g nZnT nt R = true := by
  by_contra hbad
  obtain ⟨hr, hov, hcov⟩ := half_facts hns hnt hT
  -- no thread sees both signs
  have key : ∀ t, isThread nt t → ∀ j kl j' kl', holdsHalf (R t) j → (0 ≤ kl ∧ kl < nZnT) →
      holdsHalf (R t) j' → (0 ≤ kl' ∧ kl' < nZnT) → Neg (g j kl) → Pos (g j' kl') → False := by
    intro t ht j kl j' kl' hj hkl hj' hkl' h1 h2
    apply hbad
    have hf := hr t ht
    have hn : 0 ≤ ((R t).nsMaxH - (R t).nsMinH) * nZnT := Int.mul_nonneg (by omega) hz.le
    obtain ⟨i, hi, e⟩ := local_index hz g (R t) hj hkl
    obtain ⟨i', hi', e'⟩ := local_index hz g (R t) hj' hkl'
    refine (teamBad_iff (by omega)).2 ⟨t, ht, localBad_of_signs hn _ ?_ hi hi' (e ▸ h1) (e' ▸ h2)⟩
    intro k hk hk' q hq
    obtain ⟨a, b, ha, hb, e2⟩ := local_index_inv hz g (R t) ⟨hk, hk'⟩
    exact hm a b (onGrid_of_holds hns hnt hT ht ha hb) q (e2 ▸ hq)
  -- so the sign of a thread is handed on to its neighbours
  have pass : ∀ t, isThread nt t → isThread nt (t + 1) →
      ((∃ j kl, holdsHalf (R t) j ∧ (0 ≤ kl ∧ kl < nZnT) ∧ Neg (g j kl)) →
        ∃ j kl, holdsHalf (R (t + 1)) j ∧ (0 ≤ kl ∧ kl < nZnT) ∧ Neg (g j kl)) ∧
      ((∃ j kl, holdsHalf (R t) j ∧ (0 ≤ kl ∧ kl < nZnT) ∧ Pos (g j kl)) →
        ∃ j kl, holdsHalf (R (t + 1)) j ∧ (0 ≤ kl ∧ kl < nZnT) ∧ Pos (g j kl)) := by
    intro t ht ht'
    obtain ⟨j0, hj0, hj0'⟩ := hov t ht ht'
    have hf := hr t ht
    obtain ⟨kl0, hkl0, hsgn⟩ := hs j0 (by have := hj0.1; omega) (by have := hj0.2; omega)
    refine ⟨?_, ?_⟩
    · rintro ⟨j, kl, hj, hkl, hneg⟩
      rcases hsgn with h1 | h1
      · exact ⟨j0, kl0, hj0', hkl0, h1⟩
      · exact absurd (key t ht _ _ _ _ hj hkl hj0 hkl0 hneg h1) id
    · rintro ⟨j, kl, hj, hkl, hpos⟩
      rcases hsgn with h1 | h1
      · exact absurd (key t ht _ _ _ _ hj0 hkl0 hj hkl h1 hpos) id
      · exact ⟨j0, kl0, hj0', hkl0, h1⟩
  have passN : ∀ k : Nat, ∀ t, isThread nt t → isThread nt (t + k) →
      ((∃ j kl, holdsHalf (R t) j ∧ (0 ≤ kl ∧ kl < nZnT) ∧ Neg (g j kl)) →
        ∃ j kl, holdsHalf (R (t + k)) j ∧ (0 ≤ kl ∧ kl < nZnT) ∧ Neg (g j kl)) ∧
      ((∃ j kl, holdsHalf (R t) j ∧ (0 ≤ kl ∧ kl < nZnT) ∧ Pos (g j kl)) →
        ∃ j kl, holdsHalf (R (t + k)) j ∧ (0 ≤ kl ∧ kl < nZnT) ∧ Pos (g j kl)) := by
    intro k
    induction k with
    | zero => intro t _ _; simp
    | succ k ih =>
      intro t ht ht'
      have hk : isThread nt (t + k) := ⟨by have := ht.1; omega, by have := ht'.2; omega⟩
      have e : t + ((k + 1 : Nat) : Int) = t + k + 1 := by push_cast; ring
      rw [e] at ht' ⊢
      exact ⟨fun h => (pass _ hk ht').1 ((ih t ht hk).1 h), fun h => (pass _ hk ht').2 ((ih t ht hk).2 h)⟩
  obtain ⟨⟨j, kl, hj, hneg⟩, ⟨j', kl', hj', hpos⟩⟩ := h
  obtain ⟨t, ht, hh⟩ := hcov j hj.1.1 hj.1.2
  obtain ⟨t', ht', hh'⟩ := hcov j' hj'.1.1 hj'.1.2
  rcases le_total t t' with hle | hle
  · have e : t + ((t' - t).toNat : Int) = t' := by omega
    have := (passN (t' - t).toNat t ht (by rw [e]; exact ht')).1 ⟨j, kl, hh, hj.2, hneg⟩
    rw [e] at this
    obtain ⟨a, b, ha, hb, hn⟩ := this
    exact key t' ht' _ _ _ _ ha hb hh' hj'.2 hn hpos
  · have e : t' + ((t - t').toNat : Int) = t := by omega
    have := (passN (t - t').toNat t' ht' (by rw [e]; exact ht)).2 ⟨j', kl', hh', hj'.2, hpos⟩
    rw [e] at this
    obtain ⟨a, b, ha, hb, hn⟩ := this
    exact key t ht _ _ _ _ hh hj.2 ha hb hneg hn

/-- C22, proved part: for fields without NaN, with no half-grid surface on which the Jacobian
    vanishes everywhere and with magnitudes that do not under- or overflow, the verdict is exactly
    "changes sign or is infinite somewhere" for every team. -/
theorem C22_verdict_partial (hns : 2 ≤ ns) (hz : 0 < nZnT) (hnt : 1 ≤ nt) (hT : Team nt ns lfreeb R)
    (hm : ∀ j kl, onGrid ns nZnT j kl → ∀ q, g j kl = .fin q →
      q = 0 ∨ (1 / 2 ^ 500 ≤ |q| ∧ |q| ≤ 2 ^ 500))
    (hnan : ∀ j kl, onGrid ns nZnT j kl → g j kl ≠ .nan)
    (hs : ∀ j, 0 ≤ j → j < ns - 1 → ∃ kl, (0 ≤ kl ∧ kl < nZnT) ∧ g j kl ≠ .fin 0) :
    teamBad g nZnT nt R = true ↔
      ChangesSign ns nZnT g ∨ ∃ j kl, onGrid ns nZnT j kl ∧ (g j kl).isFinite = false := by
  constructor
  · refine C22_no_false_alarm hns hz hnt hT fun j kl h q hq => ?_
    rcases hm j kl h q hq with h | h
    · exact (by rw [h, abs_zero] : |q| = 0).trans_le (by positivity)
    · exact h.2
  · rintro (h | ⟨j, kl, hj, h⟩)
    · refine C22_sign_change_reported_partial hns hz hnt hT hm ?_ h
      intro j h0 h1
      obtain ⟨kl, hkl, hne⟩ := hs j h0 h1
      refine ⟨kl, hkl, ?_⟩
      have h2 := hnan j kl ⟨⟨h0, h1⟩, hkl⟩
      cases hg : g j kl with
      | nan => exact absurd hg h2
      | pinf => right; rfl
      | ninf => left; rfl
      | fin q =>
        have : q ≠ 0 := by rintro rfl; exact hne hg
        rcases lt_or_gt_of_ne this with h | h
        · left; simpa [D.lt] using h
        · right; simpa [D.lt] using h
    · refine C22_infinity_reported hns hz hnt hT hj ?_
      have := hnan j kl hj
      cases hg : g j kl with
      | nan => exact absurd hg this
      | pinf => exact .inl rfl
      | ninf => exact .inr rfl
      | fin q => rw [hg] at h; simp [D.isFinite] at h

/-- ... so it does not depend on the number of threads (nor on free or fixed boundary). -/
theorem C22_threads_agree_partial (hns : 2 ≤ ns) (hz : 0 < nZnT) (hnt : 1 ≤ nt)
    (hT : Team nt ns lfreeb R) {nt' : Int} {lfreeb' : Bool} {R' : Int → Ranges} (hnt' : 1 ≤ nt')
    (hT' : Team nt' ns lfreeb' R')
    (hm : ∀ j kl, onGrid ns nZnT j kl → ∀ q, g j kl = .fin q →
      q = 0 ∨ (1 / 2 ^ 500 ≤ |q| ∧ |q| ≤ 2 ^ 500))
    (hnan : ∀ j kl, onGrid ns nZnT j kl → g j kl ≠ .nan)
    (hs : ∀ j, 0 ≤ j → j < ns - 1 → ∃ kl, (0 ≤ kl ∧ kl < nZnT) ∧ g j kl ≠ .fin 0) :
    teamBad g nZnT nt R = teamBad g nZnT nt' R' := by
  rw [Bool.eq_iff_iff, C22_verdict_partial hns hz hnt hT hm hnan hs,
    C22_verdict_partial hns hz hnt' hT' hm hnan hs]

/-! ## Counterexamples to the full statement -/

/-- the ranges of a team, as computed by `adjustRadialPartitioning` -/
def teamR (nt ns : Int) (lfreeb : Bool) (t : Int) : Ranges :=
  match adjustRadialPartitioning nt t ns lfreeb with
  | .ok r => r
  | _ => ⟨0, 0, 0, 0, 0, 0, 0, 0, 0⟩

/-- A NaN that follows a non-zero value is not seen: one thread, 4 half-grid surfaces of 1 point. -/
theorem C22_nan_missed :
    let g : Int → Int → D := fun j _ => if j = 2 then .nan else .fin 1
    Team 1 5 false (teamR 1 5 false) ∧ onGrid 5 1 2 0 ∧ g 2 0 = .nan ∧
      teamBad g 1 1 (teamR 1 5 false) = false := by
  refine ⟨?_, by unfold onGrid; decide, rfl, by decide +kernel⟩
  intro t ht
  have : t = 0 := by have := ht.1; have := ht.2; omega
  subst this; rfl

/-- A sign change across a surface on which the Jacobian vanishes is reported by one thread and
    missed by two. -/
theorem C22_depends_on_threads :
    let g : Int → Int → D := fun j _ => if j < 1 then .fin 1 else if j = 1 then .fin 0 else .fin (-1)
    Team 1 5 false (teamR 1 5 false) ∧ Team 2 5 false (teamR 2 5 false) ∧
      teamBad g 1 1 (teamR 1 5 false) = true ∧ teamBad g 1 2 (teamR 2 5 false) = false := by
  refine ⟨?_, ?_, by decide +kernel, by decide +kernel⟩
  · intro t ht
    have : t = 0 := by have := ht.1; have := ht.2; omega
    subst this; rfl
  · intro t ht
    have : t = 0 ∨ t = 1 := by have := ht.1; have := ht.2; omega
    rcases this with rfl | rfl <;> rfl

/-- A sign change between values so small that their product underflows is missed. -/
theorem C22_underflow_missed :
    let g : Int → Int → D := fun j _ => if j < 2 then .fin (1 / 2 ^ 600) else .fin (-1 / 2 ^ 600)
    Team 1 5 false (teamR 1 5 false) ∧ ChangesSign 5 1 g ∧
      teamBad g 1 1 (teamR 1 5 false) = false := by
  refine ⟨?_, ⟨⟨2, 0, by unfold onGrid; decide, by decide +kernel⟩,
    ⟨0, 0, by unfold onGrid; decide, by decide +kernel⟩⟩, by decide +kernel⟩
  intro t ht
  have : t = 0 := by have := ht.1; have := ht.2; omega
  subst this; rfl

/-! ## Concrete cases -/

/-- 11 surfaces, 3 threads, sign change at surface 4: reported -/
example : teamBad (fun j kl => if j < 4 then .fin (kl + 1) else .fin (-kl - 2)) 6 3 (teamR 3 11 true)
    = true := by decide +kernel
/-- the same without sign change: not reported -/
example : teamBad (fun j kl => .fin (-kl - 2 - j)) 6 3 (teamR 3 11 true) = false := by decide +kernel

/-- the hypotheses of `C22_verdict_partial` hold for that field -/
example : (∀ j kl, onGrid 11 6 j kl → ∀ q, (D.fin 3) = .fin q → q = 0 ∨ (1 / 2 ^ 500 ≤ |q| ∧ |q| ≤ 2 ^ 500)) ∧
    (∀ j : Int, 0 ≤ j → j < 11 - 1 → ∃ kl : Int, (0 ≤ kl ∧ kl < 6) ∧ (D.fin 3) ≠ .fin 0) := by
  refine ⟨?_, fun j _ _ => ⟨0, by decide, by decide⟩⟩
  intro j kl _ q hq
  injection hq with hq
  subst hq
  right
  constructor <;> decide +kernel

end Verif.Jacobian
