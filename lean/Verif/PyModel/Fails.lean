import Verif.PyModel.Props

/-!
# C100: where the Hessian-vector product is not what its documentation says, and a regular case
-/
namespace Verif.PyModel
open Verif Verif.Coeffs

/-- one coefficient each of R, Z and lambda, all zero: the smallest state -/
def zero3 : Arrays
  | .rcc | .zsc | .lsc => [0]
  | _ => []

/-- three numbers as arrays -/
def three (a b c : ℝ) : Arrays
  | .rcc => [a]
  | .zsc => [b]
  | .lsc => [c]
  | _ => []

/-- a forward model with force `F(x) = x`, whose derivative along `v` is `v` -/
def identity : Forward Unit := { mask := id, badJacobian := fun _ => false, error := fun _ _ => none, forces := fun x _ => x, after := fun _ _ => () }

theorem identity_regular (s : Mdl Unit) (flat : List ℝ) : Regular identity (canonical false false) s id flat :=
  ⟨fun _ _ => rfl, fun _ _ _ => rfl, fun _ _ h => h.1⟩

theorem norm_e : norm [1, 0, 0] = 1 := by simp [norm]
theorem norm_0 : norm [0, 0, 0] = 0 := by simp [norm]

/-- the hypotheses of `C100_hvp_partial`, `C100_quadratic_partial` and `C100_homogeneous_partial` can be met -/
example (e : ℝ) (he : e ≠ 0) : ∃ r, (hessianVectorProduct identity (geometrySpans false false) (forceSpans false false) e [1, 0, 0] ⟨zero3, zero3, false, ()⟩).1 = .ok r ∧ r[0]? = some 1 :=
  C100_quadratic_partial false false identity (fun _ _ => rfl) e he [1, 0, 0] ⟨zero3, zero3, false, ()⟩ (by intro c; cases c <;> simp [canonical, zero3]) [0, 0, 0] (by rfl) rfl (by rw [norm_e]; norm_num) id
    (identity_regular _ _) (identity_regular _ _) 0 0 1 0 (by intro t; simp [axpy])
example (e : ℝ) : ∃ r, (hessianVectorProduct identity (geometrySpans false false) (forceSpans false false) e [1, 0, 0] ⟨zero3, zero3, false, ()⟩).1 = .ok r ∧
    (hessianVectorProduct identity (geometrySpans false false) (forceSpans false false) e ([1, 0, 0].map fun a => -3 * a) ⟨zero3, zero3, false, ()⟩).1 = .ok (r.map fun a => -3 * a) :=
  C100_homogeneous_partial false false identity (fun _ _ => rfl) e [1, 0, 0] ⟨zero3, zero3, false, ()⟩ (by intro c; cases c <;> simp [canonical, zero3]) [0, 0, 0] (by rfl) rfl (by rw [norm_e]; norm_num) id
    (identity_regular _ _) (identity_regular _ _) (-3) (by norm_num)
/-- a state of a three-dimensional run with two modes on two surfaces -/
example : ∃ y, unflattenActive (geometrySpans true false) (fun c => if c ∈ canonical true false then [1, 2, 3, 4] else []) (List.replicate 24 7) = .ok y ∧ flattenActive (geometrySpans true false) y = List.replicate 24 7 := by
  obtain ⟨y, h1, h2, _⟩ := C100_set_get true false (fun c => if c ∈ canonical true false then [1, 2, 3, 4] else []) (List.replicate 24 7) (by simp [geometrySpans, flattenActive, canonical])
  exact ⟨y, h1, h2⟩
example : pick [1e-6, 1e-10, 1e-12] (stepIndex [11, 31, 51] 31) (0 : ℝ) = .ok 1e-10 := by
  have := (C100_step [11, 31, 51] [1e-6, 1e-10, 1e-12] 31 (0 : ℝ)).1 1 (by rfl) (by intro k hk; interval_cases k; decide)
  simpa using this

/-- the same forward model, but with a bad Jacobian for positive first coefficient -/
noncomputable def flips : Forward Unit := { identity with badJacobian := fun x => if 0 < (x .rcc).headD 0 then true else false }

/-- **C100** is false of the code: if the Jacobian changes sign at the first perturbed state, `update` returns before it writes the forces, and nobody looks at the restart reason: the difference quotient is
    taken with the forces of some earlier evaluation, here 5 instead of `e`, and returned as if nothing had happened; the second evaluation clears the restart reason, too. -/
theorem C100_stale_fails (e : ℝ) (he : 0 < e) :
    hessianVectorProduct flips (geometrySpans false false) (forceSpans false false) e [1, 0, 0] ⟨zero3, three 5 0 0, false, ()⟩ = (.ok [(5 + e) / (2 * e), 0, 0], ⟨zero3, three (-e) 0 0, false, ()⟩) := by
  have hz : ([0, 0, 0] : List ℝ) = flattenActive (geometrySpans false false) zero3 := rfl
  unfold hessianVectorProduct
  simp only [← hz, norm_e, norm_0]
  simp only [one_ne_zero, if_false, add_zero, mul_one, div_one, ne_eq, List.length_cons, List.length_nil, not_true_eq_false]
  have hs : ∀ (a b c : ℝ) (x f : Arrays) (bd : Bool), (x = zero3 ∨ ∃ a b c, x = three a b c) → setState (geometrySpans false false) [a, b, c] (⟨x, f, bd, ()⟩ : Mdl Unit) = (.ok (), ⟨three a b c, f, bd, ()⟩) := by
    intro a b c x f bd hx
    have : unflattenActive (geometrySpans false false) x [a, b, c] = .ok (three a b c) := by
      have h := unflatten_of (canonical false false) (canonical_nodup _ _) x (three a b c) (by rcases hx with rfl | ⟨_, _, _, rfl⟩ <;> intro k <;> cases k <;> simp [canonical, three, zero3])
        (by rcases hx with rfl | ⟨_, _, _, rfl⟩ <;> intro k <;> cases k <;> simp [canonical, three, zero3])
      simpa [canonical, three, spans_eq] using h
    rw [setState, this]
  have h0 : three 0 0 0 = zero3 := by funext k; cases k <;> rfl
  have a1 : axpy e [1, 0, 0] [0, 0, 0] = [e, 0, 0] := by simp [axpy]
  have a2 : axpy (-e) [1, 0, 0] [0, 0, 0] = [-e, 0, 0] := by simp [axpy]
  rw [a1, hs _ _ _ _ _ _ (Or.inl rfl)]
  have e1 : evaluate flips (⟨three e 0 0, three 5 0 0, false, ()⟩ : Mdl Unit) = (.ok (), ⟨three e 0 0, three 5 0 0, true, ()⟩) := by simp [evaluate, flips, identity, three, he]
  have e2 : evaluate flips (⟨three (-e) 0 0, three 5 0 0, true, ()⟩ : Mdl Unit) = (.ok (), ⟨three (-e) 0 0, three (-e) 0 0, false, ()⟩) := by simp [evaluate, flips, identity, three, not_lt.2 he.le]
  simp only [Res.bind, e1]
  rw [a2, hs _ _ _ _ _ _ (Or.inr ⟨_, _, _, rfl⟩)]
  simp only [e2]
  rw [hs _ _ _ _ _ _ (Or.inr ⟨_, _, _, rfl⟩), h0]
  simp [quotient, flattenActive, forceSpans, three, sub_neg_eq_add]

/-- the same forward model, but with an error for positive first coefficient, as from `constraintForceMultiplier` -/
noncomputable def errs : Forward Unit := { identity with error := fun x _ => if 0 < (x .rcc).headD 0 then some "tcon" else none }

/-- **C100** is false of the code: if the forward model reports an error at a perturbed state, the exception leaves the model in the perturbed state. -/
theorem C100_restore_fails (e : ℝ) (he : 0 < e) :
    (hessianVectorProduct errs (geometrySpans false false) (forceSpans false false) e [1, 0, 0] ⟨zero3, zero3, false, ()⟩).1 = .throws "tcon" ∧
    flattenActive (geometrySpans false false) (hessianVectorProduct errs (geometrySpans false false) (forceSpans false false) e [1, 0, 0] ⟨zero3, zero3, false, ()⟩).2.x = [e, 0, 0] := by
  have hz : ([0, 0, 0] : List ℝ) = flattenActive (geometrySpans false false) zero3 := rfl
  have key : hessianVectorProduct errs (geometrySpans false false) (forceSpans false false) e [1, 0, 0] ⟨zero3, zero3, false, ()⟩ = (.throws "tcon", ⟨three e 0 0, zero3, false, ()⟩) := by
    unfold hessianVectorProduct
    simp only [← hz, norm_e, norm_0]
    simp only [one_ne_zero, if_false, add_zero, mul_one, div_one, ne_eq, List.length_cons, List.length_nil, not_true_eq_false]
    have a1 : axpy e [1, 0, 0] [0, 0, 0] = [e, 0, 0] := by simp [axpy]
    have hs : setState (geometrySpans false false) [e, 0, 0] (⟨zero3, zero3, false, ()⟩ : Mdl Unit) = (.ok (), ⟨three e 0 0, zero3, false, ()⟩) := by
      have h := unflatten_of (canonical false false) (canonical_nodup _ _) zero3 (three e 0 0) (by intro k; cases k <;> simp [canonical, three, zero3]) (by intro k; cases k <;> simp [canonical, three, zero3])
      have h' : unflattenActive (geometrySpans false false) zero3 [e, 0, 0] = .ok (three e 0 0) := by simpa [canonical, three, spans_eq] using h
      rw [setState, h']
    have e1 : evaluate errs (⟨three e 0 0, zero3, false, ()⟩ : Mdl Unit) = (.throws "tcon", ⟨three e 0 0, zero3, false, ()⟩) := by simp [evaluate, errs, identity, three, he]
    rw [a1, hs]
    simp only [Res.bind, e1]
  rw [key]
  exact ⟨rfl, rfl⟩

/-- **C100** is false of the code: a direction of the wrong length is not refused; the vectors are added first. -/
theorem C100_direction_fails (e : ℝ) : ∃ what, (hessianVectorProduct identity (geometrySpans false false) (forceSpans false false) e [1] ⟨zero3, zero3, false, ()⟩).1 = .ub what := by
  refine ⟨"x + eps * v", ?_⟩
  have hz : flattenActive (geometrySpans false false) zero3 = ([0, 0, 0] : List ℝ) := rfl
  unfold hessianVectorProduct
  simp [hz, norm]

/-- a force that does not depend on the state, but on a constraint reference that every evaluation multiplies by 0.9: `rCon0`, `zCon0` in a free-boundary run (`ideal_mhd_model.cc:785-794`) -/
noncomputable def decays : Forward ℝ := { mask := id, badJacobian := fun _ => false, error := fun _ _ => none, forces := fun _ m => three (m * (9 / 10)) 0 0, after := fun _ m => m * (9 / 10) }

/-- **C100** is false of the code: in a free-boundary run the constraint reference shrinks by ten percent in every evaluation once the vacuum pressure is on, so that the two forces belong to different
    references and their difference is divided by the tiny step: here the force does not depend on the state at all and the product is `0.045 / e`. -/
theorem C100_memory_fails (e : ℝ) : (hessianVectorProduct decays (geometrySpans false false) (forceSpans false false) e [1, 0, 0] ⟨zero3, zero3, false, 1⟩).1 = .ok [(9 / 100) / (2 * e), 0, 0] := by
  have hf : flattenActive (canonical false false) zero3 = ([0, 0, 0] : List ℝ) := rfl
  have hst : stepOf e [0, 0, 0] [1, 0, 0] = e := by unfold stepOf; rw [norm_e, norm_0]; ring
  have ho : ∀ a : ℝ, Holds (canonical false false) zero3 [a, 0, 0] (three a 0 0) := fun a =>
    ⟨rfl, by intro k; cases k <;> rfl, by intro k; cases k <;> simp [canonical, three, zero3]⟩
  have h := hvp_run decays (fun _ _ => rfl) (canonical_nodup false false) e [1, 0, 0] ⟨zero3, zero3, false, (1 : ℝ)⟩ (by intro c; cases c <;> simp [canonical, zero3]) rfl (by rw [norm_e]; norm_num)
    (yp := three e 0 0) (ym := three (-e) 0 0) (by simp only [hf, hst]; simpa [axpy] using ho e) (by simp only [hf, hst]; simpa [axpy] using ho (-e)) rfl rfl (fun _ => rfl) (fun _ => rfl)
  rw [spans_eq, fspans_eq, h]
  simp only [hf, hst]
  simp [quotient, flattenActive, canonical, three, decays]
  norm_num

end Verif.PyModel
