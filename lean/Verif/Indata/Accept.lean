import Verif.Indata.Json

/-!
# Helper lemmas: what the reader returns
-/
namespace Verif.Indata
open Verif

/-- an object without NaN and infinities -/
def FiniteObj (j : Obj) : Prop := ∀ k v, j k = some v → Finite v

/-- all entries are finite -/
def AllFin (a : Mat D) : Prop := ∀ i j, 0 ≤ i → i < a.rows → 0 ≤ j → j < a.cols → (a.val i j).isFinite = true

/-- values of their types, with matching lengths -/
structure Good (d : Indata) : Prop where
  plain : Plain d
  lens : Matching d

theorem field_inv {α : Type} {r : Outcome (Option α)} {old v : α} (Q : α → Prop) (h : field r old = .ok v) (ho : Q old)
    (hr : ∀ x, r = .ok (some x) → Q x) : Q v := by
  unfold field at h
  rw [bind_ok_iff] at h
  obtain ⟨x, h1, h2⟩ := h
  cases h2
  cases x with
  | none => exact ho
  | some x => exact hr x h1

section
variable {j : Obj} (F : FiniteObj j) {name : String}

theorem readInt_inv {x : Int} (h : readInt j name = .ok (some x)) : IsInt x := by
  unfold readInt at h
  split at h
  · cases h
  · cases h; exact toInt_isInt _
  · cases h

include F in
theorem readDouble_inv {x : D} (h : readDouble j name = .ok (some x)) : x.isFinite = true := by
  unfold readDouble at h
  split at h
  · cases h
  · cases h; rfl
  · rename_i x e
    cases h
    cases F _ _ e with
    | float _ h => exact h
  · cases h

theorem entriesInt_inv {l : List Json} {v : List Int} (h : entriesInt name l = .ok v) : ∀ n ∈ v, IsInt n := by
  induction l generalizing v with
  | nil => cases h; simp
  | cons a l ih =>
    unfold entriesInt at h
    split at h
    · cases h; simp
    · rename_i heq
      cases heq
      rw [bind_ok_iff] at h
      obtain ⟨r, h1, h2⟩ := h
      cases h2
      intro n hn
      rcases List.mem_cons.1 hn with rfl | hn
      · exact toInt_isInt _
      · exact ih h1 n hn
    · cases h

theorem readVectorInt_inv {v : List Int} (h : readVectorInt j name = .ok (some v)) : ∀ n ∈ v, IsInt n := by
  unfold readVectorInt at h
  split at h
  · cases h
  · rw [bind_ok_iff] at h
    obtain ⟨r, h1, h2⟩ := h
    cases h2
    exact entriesInt_inv h1
  · cases h

theorem entriesDouble_inv {l : List Json} (hl : ∀ j ∈ l, Finite j) {v : List D} (h : entriesDouble name l = .ok v) : ∀ x ∈ v, x.isFinite = true := by
  induction l generalizing v with
  | nil => cases h; simp
  | cons a l ih =>
    have hl' := fun {v} => @ih (fun j hj => hl j (by simp [hj])) v
    unfold entriesDouble at h
    split at h
    · cases h; simp
    · rename_i heq
      cases heq
      rw [bind_ok_iff] at h
      obtain ⟨r, h1, h2⟩ := h
      cases h2
      intro n hn
      rcases List.mem_cons.1 hn with rfl | hn
      · rfl
      · exact hl' h1 n hn
    · rename_i heq
      cases heq
      rw [bind_ok_iff] at h
      obtain ⟨r, h1, h2⟩ := h
      cases h2
      intro n hn
      rcases List.mem_cons.1 hn with rfl | hn
      · have := hl (.float n) (by simp)
        cases this with
        | float _ h => exact h
      · exact hl' h1 n hn
    · cases h

include F in
theorem readVectorDouble_inv {v : List D} (h : readVectorDouble j name = .ok (some v)) : ∀ x ∈ v, x.isFinite = true := by
  unfold readVectorDouble at h
  split at h
  · cases h
  · rename_i l e
    rw [bind_ok_iff] at h
    obtain ⟨r, h1, h2⟩ := h
    cases h2
    cases F _ _ e with
    | arr _ h => exact entriesDouble_inv h h1
  · cases h

theorem int_inv {old v : Int} (ho : IsInt old) (h : field (readInt j name) old = .ok v) : IsInt v :=
  field_inv IsInt h ho fun _ hx => readInt_inv hx

theorem ints_inv {old v : List Int} (ho : ∀ n ∈ old, IsInt n) (h : field (readVectorInt j name) old = .ok v) : ∀ n ∈ v, IsInt n :=
  field_inv (fun v => ∀ n ∈ v, IsInt n) h ho fun _ hx => readVectorInt_inv hx

include F in
theorem double_inv {old v : D} (ho : old.isFinite = true) (h : field (readDouble j name) old = .ok v) : v.isFinite = true :=
  field_inv (fun v => v.isFinite = true) h ho fun _ hx => readDouble_inv F hx

include F in
theorem doubles_inv {old v : List D} (ho : ∀ x ∈ old, x.isFinite = true) (h : field (readVectorDouble j name) old = .ok v) : ∀ x ∈ v, x.isFinite = true :=
  field_inv (fun v => ∀ x ∈ v, x.isFinite = true) h ho fun _ hx => readVectorDouble_inv F hx

theorem reject_eq_inv {a b : Nat} {w : String} (h : reject (decide (a ≠ b)) w = .ok ()) : a = b := by
  rw [reject_ok_iff] at h
  simpa using h

theorem padOrReject_inv {ntor : Int} {v w : List D} (hv : ∀ x ∈ v, x.isFinite = true) (h : padOrReject ntor name v = .ok w) :
    ∀ x ∈ w, x.isFinite = true := by
  unfold padOrReject at h
  split at h
  · cases h
  · split at h
    · cases h
      intro x hx
      rcases List.mem_append.1 hx with hx | hx
      · exact hv x hx
      · rw [List.eq_of_mem_replicate hx]; rfl
    · cases h; exact hv

include F in
theorem readAxisOpt_inv {ntor : Int} {old r : Option (List D)} (ho : ∀ v, old = some v → ∀ x ∈ v, x.isFinite = true)
    (h : readAxisOpt j name ntor old = .ok r) : ∀ v, r = some v → ∀ x ∈ v, x.isFinite = true := by
  unfold readAxisOpt at h
  simp only [bind_ok_iff] at h
  obtain ⟨x, h1, v, h2, w, h3, h4⟩ := h
  cases h4
  intro u hu
  cases hu
  refine padOrReject_inv ?_ h3
  unfold valueOf at h2
  split at h2
  · rename_i q e
    cases h2
    cases x with
    | none => exact ho _ e
    | some x =>
      cases e
      exact readVectorDouble_inv F h1
  · cases h2

theorem boundaryEntries_inv {l : List Json} (hl : ∀ j ∈ l, Finite j) {es : List Coefficient} (h : boundaryEntries name l = .ok es) :
    ∀ e ∈ es, e.value.isFinite = true := by
  induction l generalizing es with
  | nil => cases h; simp
  | cons a l ih =>
    have hl' := fun {es} => @ih (fun j hj => hl j (by simp [hj])) es
    unfold boundaryEntries at h
    split at h
    · cases h; simp
    · rename_i o l' heq
      cases heq
      have hF : FiniteObj o := by
        have := hl (.obj o) (by simp)
        cases this with
        | obj _ h _ _ => exact h
      rw [bind_ok_iff] at h
      obtain ⟨m, h1, h⟩ := h
      cases m with
      | none => exact hl' h
      | some m =>
        dsimp only at h
        rw [bind_ok_iff] at h
        obtain ⟨n, h2, h⟩ := h
        cases n with
        | none => exact hl' h
        | some n =>
          dsimp only at h
          rw [bind_ok_iff] at h
          obtain ⟨v, h3, h⟩ := h
          cases v with
          | none => exact hl' h
          | some v =>
            dsimp only at h
            rw [bind_ok_iff] at h
            obtain ⟨r, h4, h⟩ := h
            cases h
            intro e he
            rcases List.mem_cons.1 he with rfl | he
            · exact readDouble_inv hF h3
            · exact hl' h4 e he
    · cases h

include F in
theorem readBoundary_inv {es : List Coefficient} (h : readBoundary j name = .ok (some es)) : ∀ e ∈ es, e.value.isFinite = true := by
  unfold readBoundary at h
  split at h
  · cases h
  · rename_i l e
    rw [bind_ok_iff] at h
    obtain ⟨r, h1, h2⟩ := h
    cases h2
    cases F _ _ e with
    | arr _ h => exact boundaryEntries_inv h h1
  · cases h

theorem fillBoundary_inv {mpol ntor : Int} {es : List Coefficient} (he : ∀ e ∈ es, e.value.isFinite = true) {a r : Mat D} (ha : AllFin a)
    (h : fillBoundary mpol ntor es a = .ok r) : AllFin r := by
  induction es generalizing a with
  | nil => cases h; exact ha
  | cons e l ih =>
    have he' := fun e hl => he e (List.mem_cons_of_mem _ hl)
    unfold fillBoundary at h
    split at h
    · exact ih he' ha h
    · split at h
      · cases h
      split at h
      · exact ih he' ha h
      · rw [bind_ok_iff] at h
        obtain ⟨b, h1, h2⟩ := h
        refine ih he' ?_ h2
        unfold Mat.set at h1
        split at h1
        · cases h1
          intro i k i0 i1 k0 k1
          show (if i = e.m ∧ k = ntor + e.n then e.value else a.val i k).isFinite = true
          split
          · exact he e (by simp)
          · exact ha i k i0 i1 k0 k1
        · cases h1

theorem zero_inv {r c : Int} {a : Mat D} (h : Mat.zero r c = .ok a) : AllFin a := by
  unfold Mat.zero at h
  split at h
  · cases h
    intro i k _ _ _ _
    rfl
  · cases h

include F in
theorem readBoundarySym_inv {d : Indata} {old r : Mat D} (ho : AllFin old) (h : readBoundarySym j name d old = .ok r) : AllFin r := by
  unfold readBoundarySym at h
  rw [bind_ok_iff] at h
  obtain ⟨x, h1, h2⟩ := h
  cases x with
  | none => cases h2; exact ho
  | some l =>
    dsimp only at h2
    rw [bind_ok_iff] at h2
    obtain ⟨z, h3, h4⟩ := h2
    exact fillBoundary_inv (readBoundary_inv F h1) (zero_inv h3) h4

include F in
theorem readBoundaryAsym_inv {d : Indata} {old r : Mat D} (ho : AllFin old) (h : readBoundaryAsym j name d old = .ok r) : AllFin r := by
  unfold readBoundaryAsym at h
  rw [bind_ok_iff] at h
  obtain ⟨x, h1, h2⟩ := h
  cases x with
  | none => cases h2; exact ho
  | some l => exact fillBoundary_inv (readBoundary_inv F h1) ho h2

theorem Good.resolution {c d : Indata} (G : Good c) (h : readResolution j c = .ok d) : Good d := by
  unfold readResolution at h
  simp only [bind_ok_iff] at h
  obtain ⟨v1, h1, v2, h2, v3, h3, v4, h4, v5, h5, v6, h6, v7, h7, v8, h8, h⟩ := h
  cases h
  have P := G.plain
  exact ⟨{ P with
    nfp := int_inv P.nfp h2, mpol := int_inv P.mpol h3, ntor := int_inv P.ntor h4, mpol_geometry := int_inv P.mpol_geometry h5
    ntor_geometry := int_inv P.ntor_geometry h6, ntheta := int_inv P.ntheta h7, nzeta := int_inv P.nzeta h8 }, { G.lens with }⟩

include F in
theorem Good.grids {c d : Indata} (G : Good c) (h : readGrids j c = .ok d) : Good d := by
  unfold readGrids at h
  simp only [bind_ok_iff, exists_unit] at h
  obtain ⟨v1, h1, v2, h2, r1, v3, h3, r2, h⟩ := h
  cases h
  have P := G.plain
  exact ⟨{ P with
    ns_array := ints_inv P.ns_array h1, ftol_array := doubles_inv F P.ftol_array h2, niter_array := ints_inv P.niter_array h3 },
    { G.lens with ftol := reject_eq_inv r1, niter := reject_eq_inv r2 }⟩

include F in
theorem Good.mass {c d : Indata} (G : Good c) (h : readMass j c = .ok d) : Good d := by
  unfold readMass at h
  simp only [bind_ok_iff, exists_unit] at h
  obtain ⟨v1, h1, v2, h2, v3, h3, v4, h4, v5, h5, v6, h6, r1, v7, h7, v8, h8, v9, h9, h⟩ := h
  cases h
  have P := G.plain
  exact ⟨{ P with
    phiedge := double_inv F P.phiedge h1, ncurr := int_inv P.ncurr h2, am := doubles_inv F P.am h4, am_aux_s := doubles_inv F P.am_aux_s h5
    am_aux_f := doubles_inv F P.am_aux_f h6, pres_scale := double_inv F P.pres_scale h7, gamma := double_inv F P.gamma h8
    spres_ped := double_inv F P.spres_ped h9 }, { G.lens with am := reject_eq_inv r1 }⟩

include F in
theorem Good.iota {c d : Indata} (G : Good c) (h : readIota j c = .ok d) : Good d := by
  unfold readIota at h
  simp only [bind_ok_iff, exists_unit] at h
  obtain ⟨v1, h1, v2, h2, v3, h3, v4, h4, r1, h⟩ := h
  cases h
  have P := G.plain
  exact ⟨{ P with
    ai := doubles_inv F P.ai h2, ai_aux_s := doubles_inv F P.ai_aux_s h3, ai_aux_f := doubles_inv F P.ai_aux_f h4 },
    { G.lens with ai := reject_eq_inv r1 }⟩

include F in
theorem Good.current {c d : Indata} (G : Good c) (h : readCurrent j c = .ok d) : Good d := by
  unfold readCurrent at h
  simp only [bind_ok_iff, exists_unit] at h
  obtain ⟨v1, h1, v2, h2, v3, h3, v4, h4, r1, v5, h5, v6, h6, h⟩ := h
  cases h
  have P := G.plain
  exact ⟨{ P with
    ac := doubles_inv F P.ac h2, ac_aux_s := doubles_inv F P.ac_aux_s h3, ac_aux_f := doubles_inv F P.ac_aux_f h4
    curtor := double_inv F P.curtor h5, bloat := double_inv F P.bloat h6 }, { G.lens with ac := reject_eq_inv r1 }⟩

include F in
theorem Good.freeBoundary {c d : Indata} (G : Good c) (h : readFreeBoundary j c = .ok d) : Good d := by
  unfold readFreeBoundary at h
  simp only [bind_ok_iff] at h
  obtain ⟨v1, h1, v2, h2, v3, h3, v4, h4, v5, h5, h⟩ := h
  cases h
  have P := G.plain
  exact ⟨{ P with extcur := doubles_inv F P.extcur h3, nvacskip := int_inv P.nvacskip h4 }, { G.lens with }⟩

include F in
theorem Good.tweaks {c d : Indata} (G : Good c) (h : readTweaks j c = .ok d) : Good d := by
  unfold readTweaks at h
  simp only [bind_ok_iff] at h
  obtain ⟨v1, h1, v2, h2, v3, h3, v4, h4, v5, h5, v6, h6, v7, h7, h⟩ := h
  cases h
  have P := G.plain
  exact ⟨{ P with
    nstep := int_inv P.nstep h1, aphi := doubles_inv F P.aphi h2, delt := double_inv F P.delt h3, tcon0 := double_inv F P.tcon0 h4 }, { G.lens with }⟩

include F in
theorem Good.axis {c d : Indata} (G : Good c) (h : readAxis j c = .ok d) : Good d := by
  unfold readAxis at h
  simp only [bind_ok_iff] at h
  obtain ⟨v1, h1, v2, h2, v3, h3, v4, h4, h⟩ := h
  have P := G.plain
  have q1 := padOrReject_inv (doubles_inv F P.raxis_c h1) h2
  have q2 := padOrReject_inv (doubles_inv F P.zaxis_s h3) h4
  cases hl : c.lasym
  · rw [hl, if_neg (by simp)] at h
    cases h
    exact ⟨{ P with raxis_c := q1, zaxis_s := q2 }, { G.lens with }⟩
  · rw [hl, if_pos rfl] at h
    simp only [bind_ok_iff] at h
    obtain ⟨v5, h5, v6, h6, h⟩ := h
    cases h
    exact ⟨{ P with raxis_c := q1, zaxis_s := q2, raxis_s := readAxisOpt_inv F P.raxis_s h5, zaxis_c := readAxisOpt_inv F P.zaxis_c h6 }, { G.lens with }⟩

include F in
theorem Good.boundaries {c d : Indata} (G : Good c) (h : readBoundaries j c = .ok d) : Good d := by
  unfold readBoundaries at h
  simp only [bind_ok_iff] at h
  obtain ⟨v1, h1, v2, h2, h⟩ := h
  have P := G.plain
  have q1 := readBoundarySym_inv F P.rbc h1
  have q2 := readBoundarySym_inv F P.zbs h2
  cases hl : c.lasym
  · rw [hl, if_neg (by simp)] at h
    cases h
    exact ⟨{ P with rbc := q1, zbs := q2 }, { G.lens with }⟩
  · rw [hl, if_pos rfl] at h
    simp only [bind_ok_iff] at h
    obtain ⟨z, hz, v5, h5, v6, h6, h⟩ := h
    cases h
    refine ⟨{ P with rbc := q1, zbs := q2, rbs := ?_, zbc := ?_ }, { G.lens with }⟩
    · intro a ha
      cases ha
      exact readBoundaryAsym_inv F (zero_inv hz) h5
    · intro a ha
      cases ha
      exact readBoundaryAsym_inv F (zero_inv hz) h6

end

theorem good_init : Good init := by
  have h0 : IsInt 0 := by unfold IsInt; norm_num
  have h1 : IsInt 1 := by unfold IsInt; norm_num
  have hm : IsInt (-1) := by unfold IsInt; norm_num
  refine ⟨?_, ⟨rfl, rfl, rfl, rfl, rfl⟩⟩
  constructor
  all_goals first
    | exact h0
    | exact h1
    | exact hm
    | rfl
    | (intro x hx; cases hx; done)
    | (intro i j _ _ _ _; rfl)
    | (intro x hx; rw [List.mem_singleton.1 hx]; first | rfl | (unfold IsInt; norm_num))
    | (unfold IsInt init; norm_num)
    | skip

/-- an accepted document yields values of their types with matching lengths that meet the documented constraints -/
theorem fromDoc_good {doc : Json} (hF : Finite doc) {d : Indata} (h : fromDoc doc = .ok d) : Good d ∧ Documented d := by
  cases doc with
  | obj j =>
    have F : FiniteObj j := by
      cases hF with
      | obj _ h _ _ => exact h
    unfold fromDoc at h
    simp only [bind_ok_iff, exists_unit] at h
    obtain ⟨d1, h1, d2, h2, d3, h3, d4, h4, d5, h5, d6, h6, d7, h7, d8, h8, d9, h9, hc, hd⟩ := h
    cases hd
    exact ⟨((((((((good_init.resolution h1).grids F h2).mass F h3).iota F h4).current F h5).freeBoundary F h6).tweaks F h7).axis F h8).boundaries F h9,
      (C23_ok_iff _ _).1 hc⟩
  | null => cases h
  | bool _ => cases h
  | int _ => cases h
  | float _ => cases h
  | str _ => cases h
  | arr _ => cases h

end Verif.Indata
