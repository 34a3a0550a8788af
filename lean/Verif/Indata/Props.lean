import Verif.Indata.Accept

/-!
# C24: writing an input to JSON and reading it back
-/
namespace Verif.Indata
open Verif

theorem finite_push {m n : Int} (hm : IsInt m) (hn : IsInt n) {x : D} (h : x.isFinite = true) {l : List Json} (hl : ∀ j ∈ l, Finite j) : ∀ j ∈ pushNonzero m n x l, Finite j := by
  unfold pushNonzero
  split
  · intro j hj
    rcases List.mem_append.1 hj with hj | hj
    · exact hl j hj
    · rw [List.mem_singleton.1 hj]
      exact finite_coefficient hm hn h
  · exact hl

/-- the arrays written for an asymmetric input -/
theorem boundaryLists_finite {d : Indata} (hd : Documented d) (P : Plain d) (hl : d.lasym = true) : ∃ b, boundaryLists d = .ok b ∧
    (∀ j ∈ b.rbc, Finite j) ∧ (∀ j ∈ b.zbs, Finite j) ∧ (∀ j ∈ b.rbs, Finite j) ∧ (∀ j ∈ b.zbc, Finite j) := by
  have hn := hd.ntor
  have hm := hd.mpol
  obtain ⟨-, -, ⟨x, x1, x2⟩, ⟨y, y1, y2⟩⟩ := hd.asym hl
  refine forRangeM_inv (lo := 0) (hi := d.mpol) (by omega)
    (fun m b => forRangeM (-d.ntor) (d.ntor + 1) (fun n b => pushMode d m n b) b) (⟨[], [], [], []⟩ : BoundaryLists)
    (fun _ b => (∀ j ∈ b.rbc, Finite j) ∧ (∀ j ∈ b.zbs, Finite j) ∧ (∀ j ∈ b.rbs, Finite j) ∧ (∀ j ∈ b.zbc, Finite j)) (by simp) ?_
  intro m b hm0 hm1 hb
  refine forRangeM_inv (lo := -d.ntor) (hi := d.ntor + 1) (by omega) (fun n b => pushMode d m n b) b
    (fun _ b => (∀ j ∈ b.rbc, Finite j) ∧ (∀ j ∈ b.zbs, Finite j) ∧ (∀ j ∈ b.rbs, Finite j) ∧ (∀ j ∈ b.zbc, Finite j)) hb ?_
  intro n b hn0 hn1 hb
  have g1 : d.rbc.get m (d.ntor + n) = .ok (d.rbc.val m (d.ntor + n)) := Mat.get_ok _ _ _ (by rw [hd.rbc.1, hd.rbc.2]; omega)
  have g2 : d.zbs.get m (d.ntor + n) = .ok (d.zbs.val m (d.ntor + n)) := Mat.get_ok _ _ _ (by rw [hd.zbs.1, hd.zbs.2]; omega)
  have g3 : x.get m (d.ntor + n) = .ok (x.val m (d.ntor + n)) := Mat.get_ok _ _ _ (by rw [x2.1, x2.2]; omega)
  have g4 : y.get m (d.ntor + n) = .ok (y.val m (d.ntor + n)) := Mat.get_ok _ _ _ (by rw [y2.1, y2.2]; omega)
  refine ⟨⟨pushNonzero m n (d.rbc.val m (d.ntor + n)) b.rbc, pushNonzero m n (d.zbs.val m (d.ntor + n)) b.zbs,
    pushNonzero m n (x.val m (d.ntor + n)) b.rbs, pushNonzero m n (y.val m (d.ntor + n)) b.zbc⟩, ?_, ?_⟩
  · unfold pushMode
    rw [g1, Outcome.bind_ok, g2, Outcome.bind_ok]
    dsimp only
    rw [if_pos hl, x1, y1]
    show ((Outcome.ok x >>= _) : Outcome BoundaryLists) = _
    rw [Outcome.bind_ok, g3, Outcome.bind_ok]
    show ((Outcome.ok y >>= _) : Outcome BoundaryLists) = _
    rw [Outcome.bind_ok, g4, Outcome.bind_ok]
    rfl
  · have h3 := P.mpol
    have h4 := P.ntor
    unfold IsInt at h3 h4
    have im : IsInt m := by unfold IsInt; omega
    have in' : IsInt n := by unfold IsInt; omega
    refine ⟨finite_push im in' (P.rbc _ _ hm0 ?_ ?_ ?_) hb.1, finite_push im in' (P.zbs _ _ hm0 ?_ ?_ ?_) hb.2.1,
      finite_push im in' (P.rbs _ x1 _ _ hm0 ?_ ?_ ?_) hb.2.2.1, finite_push im in' (P.zbc _ y1 _ _ hm0 ?_ ?_ ?_) hb.2.2.2⟩
    all_goals first
      | (rw [hd.rbc.1]; omega)
      | (rw [hd.rbc.2]; omega)
      | (rw [hd.zbs.1]; omega)
      | (rw [hd.zbs.2]; omega)
      | (rw [x2.1]; omega)
      | (rw [x2.2]; omega)
      | (rw [y2.1]; omega)
      | (rw [y2.2]; omega)
      | omega

/-- the document of a symmetric input -/
theorem toDoc_symmetric {d : Indata} (hd : Documented d) (P : Plain d) (hl : d.lasym = false) : ∃ b : BoundaryLists,
    toDoc d = .ok (.obj fun k => (plainMembers d ++ [("rbc", Json.arr b.rbc), ("zbs", Json.arr b.zbs)]).lookup k) ∧
    Finite (.obj fun k => (plainMembers d ++ [("rbc", Json.arr b.rbc), ("zbs", Json.arr b.zbs)]).lookup k) ∧
    Written d.mpol d.ntor d.rbc d.mpol (-d.ntor) b.rbc ∧ Written d.mpol d.ntor d.zbs d.mpol (-d.ntor) b.zbs := by
  obtain ⟨b, e1, w1, w2⟩ := boundaryLists_ok hd
  refine ⟨b, ?_, ?_, w1, w2⟩
  · unfold toDoc
    rw [hl, if_neg (by simp), Outcome.pure_eq, Outcome.bind_ok, e1]
    dsimp only
    rw [Outcome.bind_ok, if_neg (by simp), List.append_nil, List.append_nil, Outcome.pure_eq]
  · refine .obj _ (fun k j hj => ?_) _ fun k hk => lookup_keys hk
    rcases List.mem_append.1 (lookup_mem hj) with h | h
    · exact finite_plain P _ h
    · simp only [List.mem_cons, List.not_mem_nil, or_false] at h
      rcases h with h | h
      · cases h
        exact finite_written P w1 hd.rbc P.rbc
      · cases h
        exact finite_written P w2 hd.zbs P.zbs

/-- reading what was written -/
theorem fromDoc_symmetric {d : Indata} (hd : Documented d) (P : Plain d) (H : Matching d) (hl : d.lasym = false) {j : Obj} {b : BoundaryLists}
    (M : Members j d) (hr : j "rbc" = some (.arr b.rbc)) (hz : j "zbs" = some (.arr b.zbs))
    (w1 : Written d.mpol d.ntor d.rbc d.mpol (-d.ntor) b.rbc) (w2 : Written d.mpol d.ntor d.zbs d.mpol (-d.ntor) b.zbs) :
    ∃ R Z : Mat D, R.Same d.rbc ∧ Z.Same d.zbs ∧ fromDoc (.obj j) = .ok { d with rbc := R, zbs := Z } := by
  obtain ⟨R, r1, r2⟩ := readBoundarySym_written (old := init.rbc) (c := { d with rbc := init.rbc, zbs := init.zbs }) hr hd P ⟨rfl, rfl⟩ hd.rbc w1
  obtain ⟨Z, z1, z2⟩ := readBoundarySym_written (old := init.zbs) (c := { d with rbc := init.rbc, zbs := init.zbs }) hz hd P ⟨rfl, rfl⟩ hd.zbs w2
  refine ⟨R, Z, r2, z2, ?_⟩
  obtain ⟨s1, s2, s3, s4⟩ := hd.sym hl
  have ha : readAxis j (withMembers init d) = .ok { d with rbc := init.rbc, zbs := init.zbs } := by
    unfold readAxis
    rw [field_doubles M.raxis_c, Outcome.bind_ok]
    rw [padOrReject_eq (show (d.raxis_c.length : Int) = (withMembers init d).ntor + 1 from hd.raxis_c), Outcome.bind_ok, field_doubles M.zaxis_s,
      Outcome.bind_ok, padOrReject_eq (show (d.zaxis_s.length : Int) = (withMembers init d).ntor + 1 from hd.zaxis_s), Outcome.bind_ok]
    rw [if_neg (show ¬ (withMembers init d).lasym = true by show ¬ d.lasym = true; rw [hl]; simp)]
    unfold withMembers
    rw [Outcome.pure_eq]
    cases d
    simp only at s1 s2 s3 s4
    subst s1 s2 s3 s4
    rfl
  have hb : readBoundaries j { d with rbc := init.rbc, zbs := init.zbs } = .ok { d with rbc := R, zbs := Z } := by
    unfold readBoundaries
    rw [r1, Outcome.bind_ok, z1, Outcome.bind_ok]
    rw [if_neg (show ¬ d.lasym = true by rw [hl]; simp)]
    rfl
  have hdoc : Documented { d with rbc := R, zbs := Z } :=
    { hd with rbc := ⟨r2.1.trans hd.rbc.1, r2.2.1.trans hd.rbc.2⟩, zbs := ⟨z2.1.trans hd.zbs.1, z2.2.1.trans hd.zbs.2⟩ }
  have hc := (C23_ok_iff { d with rbc := R, zbs := Z } false).2 hdoc
  unfold fromDoc
  dsimp only
  rw [readResolution_eq M P, Outcome.bind_ok, readGrids_eq M P H, Outcome.bind_ok, readMass_eq M P H, Outcome.bind_ok, readIota_eq M H, Outcome.bind_ok,
    readCurrent_eq M H, Outcome.bind_ok, readFreeBoundary_eq M P, Outcome.bind_ok, readTweaks_eq M P, Outcome.bind_ok]
  change (readAxis j (withMembers init d) >>= _) = _
  rw [ha, Outcome.bind_ok, hb, Outcome.bind_ok, hc, Outcome.bind_ok, Outcome.pure_eq]

section
variable (dump : Json → String) (parse : String → Option Json) (T : TextLayer dump parse)
include T

/-- **C24**: a symmetric input is written to text that is read back to an equal input -/
theorem C24_roundtrip_partial {d : Indata} (hd : Documented d) (P : Plain d) (H : Matching d) (hl : d.lasym = false) :
    ∃ text d', toJson dump d = .ok text ∧ fromJson parse text = .ok d' ∧ Equal d' d := by
  obtain ⟨b, e1, hF, w1, w2⟩ := toDoc_symmetric hd P hl
  obtain ⟨R, Z, r, z, e2⟩ := fromDoc_symmetric (b := b) hd P H hl (members_table d [("rbc", Json.arr b.rbc), ("zbs", Json.arr b.zbs)]) rfl rfl w1 w2
  refine ⟨dump _, { d with rbc := R, zbs := Z }, (by unfold toJson; rw [e1, Outcome.bind_ok, Outcome.pure_eq]), ?_, ?_⟩
  · unfold fromJson
    rw [T.roundtrip _ hF]
    exact e2
  · obtain ⟨_, _, s3, s4⟩ := hd.sym hl
    exact ⟨rfl, r, z, Or.inl ⟨s3, s3⟩, Or.inl ⟨s4, s4⟩⟩

/-- **C24**: every symmetric input that was read from a text is read back from the text written for it -/
theorem C24_accepted_partial {source : String} {d : Indata} (h : fromJson parse source = .ok d) (hl : d.lasym = false) :
    ∃ text d', toJson dump d = .ok text ∧ fromJson parse text = .ok d' ∧ Equal d' d := by
  unfold fromJson at h
  split at h
  · cases h
  · rename_i doc e
    obtain ⟨G, hd⟩ := fromDoc_good (T.finite _ _ e) h
    exact C24_roundtrip_partial dump parse T hd G.plain G.lens hl

/-- **C24**, negation: no asymmetric input survives.  `ToJson` writes the first coefficient of `raxis_s` in place of the array, and
    `FromJson` rejects the text. -/
theorem C24_asymmetric_fails {d : Indata} (hd : Documented d) (P : Plain d) (H : Matching d) (hl : d.lasym = true) :
    ∃ text, toJson dump d = .ok text ∧ fromJson parse text = .status "raxis_s" := by
  obtain ⟨b, e1, f1, f2, f3, f4⟩ := boundaryLists_finite hd P hl
  have hn := hd.ntor
  obtain ⟨⟨v, v1, v2⟩, ⟨w, w1, w2⟩, -⟩ := hd.asym hl
  obtain ⟨x, v', rfl⟩ : ∃ x v', v = x :: v' := by
    cases v with
    | nil => simp at v2; omega
    | cons x v' => exact ⟨x, v', rfl⟩
  obtain ⟨y, w', rfl⟩ : ∃ x v', w = x :: v' := by
    cases w with
    | nil => simp at w2; omega
    | cons x v' => exact ⟨x, v', rfl⟩
  let rest : List (String × Json) := [("raxis_s", Json.float x), ("zaxis_c", Json.float y), ("rbc", Json.arr b.rbc), ("zbs", Json.arr b.zbs),
    ("rbs", Json.arr b.rbs), ("zbc", Json.arr b.zbc)]
  have e2 : toDoc d = .ok (.obj fun k => (plainMembers d ++ rest).lookup k) := by
    unfold toDoc
    rw [hl, if_pos rfl, v1, w1]
    change (boundaryLists d >>= _) = _
    rw [e1, Outcome.bind_ok]
    dsimp only
    rw [if_pos rfl, Outcome.pure_eq, List.append_assoc]
    rfl
  have hF : Finite (.obj fun k => (plainMembers d ++ rest).lookup k) := by
    refine .obj _ (fun k j hj => ?_) _ fun k hk => lookup_keys hk
    rcases List.mem_append.1 (lookup_mem hj) with h | h
    · exact finite_plain P _ h
    · simp only [rest, List.mem_cons, List.not_mem_nil, or_false] at h
      rcases h with h | h | h | h | h | h <;> cases h
      · exact .float _ (P.raxis_s _ v1 _ (by simp))
      · exact .float _ (P.zaxis_c _ w1 _ (by simp))
      · exact .arr _ f1
      · exact .arr _ f2
      · exact .arr _ f3
      · exact .arr _ f4
  refine ⟨_, by unfold toJson; rw [e2, Outcome.bind_ok, Outcome.pure_eq], ?_⟩
  have M := members_table d rest
  have hrs : (fun k => (plainMembers d ++ rest).lookup k) "raxis_s" = some (Json.float x) := rfl
  unfold fromJson
  rw [T.roundtrip _ hF]
  generalize (fun k => (plainMembers d ++ rest).lookup k) = j at M hrs
  have ha : readAxis j (withMembers init d) = .status "raxis_s" := by
    unfold readAxis
    rw [field_doubles M.raxis_c, Outcome.bind_ok]
    rw [padOrReject_eq (show (d.raxis_c.length : Int) = (withMembers init d).ntor + 1 from hd.raxis_c), Outcome.bind_ok, field_doubles M.zaxis_s,
      Outcome.bind_ok, padOrReject_eq (show (d.zaxis_s.length : Int) = (withMembers init d).ntor + 1 from hd.zaxis_s), Outcome.bind_ok]
    rw [if_pos (show (withMembers init d).lasym = true from hl)]
    unfold readAxisOpt readVectorDouble
    rw [hrs]
    rfl
  unfold fromDoc
  dsimp only
  rw [readResolution_eq M P, Outcome.bind_ok, readGrids_eq M P H, Outcome.bind_ok, readMass_eq M P H, Outcome.bind_ok, readIota_eq M H, Outcome.bind_ok,
    readCurrent_eq M H, Outcome.bind_ok, readFreeBoundary_eq M P, Outcome.bind_ok, readTweaks_eq M P, Outcome.bind_ok]
  change (readAxis j (withMembers init d) >>= _) = _
  rw [ha]
  rfl

/-- **C24**, negation for inputs that were read from a text -/
theorem C24_accepted_asymmetric_fails {source : String} {d : Indata} (h : fromJson parse source = .ok d) (hl : d.lasym = true) :
    ∃ text, toJson dump d = .ok text ∧ fromJson parse text = .status "raxis_s" := by
  unfold fromJson at h
  split at h
  · cases h
  · rename_i doc e
    obtain ⟨G, hd⟩ := fromDoc_good (T.finite _ _ e) h
    exact C24_asymmetric_fails dump parse T hd G.plain G.lens hl

end

end Verif.Indata
