import Verif.Indata.Accept

/-!
# C66: reading an input never runs into undefined behaviour
-/
namespace Verif.Indata
open Verif

/-- the entries of a boundary array have modes that the reader can handle -/
def SafeModes (j : Obj) (name : String) : Prop := ∀ l o, j name = some (.arr l) → Json.obj o ∈ l →
  (∀ i, o "m" = some (.int i) → 0 ≤ toInt i) ∧ ∀ i, o "n" = some (.int i) → toInt i ≠ -2 ^ 31

/-- what the reader needs to be told to be safe -/
structure Safe (j : Obj) : Prop where
  mpol : ∀ i, j "mpol" = some (.int i) → 0 ≤ toInt i
  ntor : ∀ i, j "ntor" = some (.int i) → 0 ≤ toInt i
  rbc : SafeModes j "rbc"
  zbs : SafeModes j "zbs"
  rbs : SafeModes j "rbs"
  zbc : SafeModes j "zbc"
  axis : j "lasym" = some (.bool true) → j "raxis_s" ≠ none ∧ j "zaxis_c" ≠ none

/-! ## Helper lemmas -/

theorem returns_field {α : Type} {r : Outcome (Option α)} {old : α} (h : Returns r) : Returns (field r old) := by
  unfold field
  exact h.bind fun _ _ => .ok _

section
variable {j : Obj} {name : String}

theorem returns_readBool : Returns (readBool j name) := by
  unfold readBool; split
  · exact .ok _
  · exact .ok _
  · exact .status _

theorem returns_readInt : Returns (readInt j name) := by
  unfold readInt; split
  · exact .ok _
  · exact .ok _
  · exact .status _

theorem returns_readString : Returns (readString j name) := by
  unfold readString; split
  · exact .ok _
  · exact .ok _
  · exact .status _

theorem returns_readDouble : Returns (readDouble j name) := by
  unfold readDouble; split
  · exact .ok _
  · exact .ok _
  · exact .ok _
  · exact .status _

theorem returns_entriesInt (l : List Json) : Returns (entriesInt name l) := by
  induction l with
  | nil => exact .ok _
  | cons a l ih =>
    unfold entriesInt
    split
    · exact .ok _
    · rename_i h; cases h
      exact ih.bind fun _ _ => .ok _
    · exact .status _

theorem returns_entriesDouble (l : List Json) : Returns (entriesDouble name l) := by
  induction l with
  | nil => exact .ok _
  | cons a l ih =>
    unfold entriesDouble
    split
    · exact .ok _
    · rename_i h; cases h
      exact ih.bind fun _ _ => .ok _
    · rename_i h; cases h
      exact ih.bind fun _ _ => .ok _
    · exact .status _

theorem returns_readVectorInt : Returns (readVectorInt j name) := by
  unfold readVectorInt; split
  · exact .ok _
  · exact (returns_entriesInt _).bind fun _ _ => .ok _
  · exact .status _

theorem returns_readVectorDouble : Returns (readVectorDouble j name) := by
  unfold readVectorDouble; split
  · exact .ok _
  · exact (returns_entriesDouble _).bind fun _ _ => .ok _
  · exact .status _

theorem returns_enum {α : Type} {conv : String → Outcome α} {old : α} (hc : ∀ s, Returns (conv s)) : Returns (enumField (readString j name) conv old) := by
  unfold enumField
  refine returns_readString.bind fun x _ => ?_
  cases x
  · exact .ok _
  · exact hc _

theorem returns_method (s : String) : Returns (freeBoundaryMethodFromString s) := by
  unfold freeBoundaryMethodFromString
  repeat' split
  all_goals first
    | exact .ok _
    | exact .status _

theorem returns_style (s : String) : Returns (iterationStyleFromString s) := by
  unfold iterationStyleFromString
  repeat' split
  all_goals first
    | exact .ok _
    | exact .status _

theorem returns_pad {ntor : Int} {v : List D} : Returns (padOrReject ntor name v) := by
  unfold padOrReject
  split
  · exact .status _
  · split
    · exact .ok _
    · exact .ok _

theorem boundaryEntries_returns (l : List Json) : Returns (boundaryEntries name l) := by
  induction l with
  | nil => exact .ok _
  | cons a l ih =>
    unfold boundaryEntries
    split
    · exact .ok _
    · rename_i o l' heq
      cases heq
      refine returns_readInt.bind fun m _ => ?_
      cases m with
      | none => exact ih
      | some m =>
        dsimp only
        refine returns_readInt.bind fun n _ => ?_
        cases n with
        | none => exact ih
        | some n =>
          dsimp only
          refine returns_readDouble.bind fun v _ => ?_
          cases v with
          | none => exact ih
          | some v => exact ih.bind fun _ _ => .ok _
    · exact .status _

theorem readInt_some {o : Obj} {x : Int} (h : readInt o name = .ok (some x)) : ∃ i, o name = some (.int i) ∧ x = toInt i := by
  unfold readInt at h
  split at h
  · cases h
  · rename_i i e; cases h; exact ⟨i, e, rfl⟩
  · cases h

theorem boundaryEntries_safe {l : List Json} (hl : ∀ o, Json.obj o ∈ l → (∀ i, o "m" = some (.int i) → 0 ≤ toInt i) ∧ ∀ i, o "n" = some (.int i) → toInt i ≠ -2 ^ 31)
    {es : List Coefficient} (h : boundaryEntries name l = .ok es) : ∀ e ∈ es, 0 ≤ e.m ∧ e.n ≠ -2 ^ 31 := by
  induction l generalizing es with
  | nil => cases h; simp
  | cons a l ih =>
    have hl' := fun {es} => @ih (fun j hj => hl j (by simp [hj])) es
    unfold boundaryEntries at h
    split at h
    · cases h; simp
    · rename_i o l' heq
      cases heq
      have ho := hl o (by simp)
      rw [bind_ok_iff] at h
      obtain ⟨m, h1, h⟩ := h
      cases m with
      | none => exact hl' h
      | some m =>
        dsimp only at h
        rw [bind_ok_iff] at h
        obtain ⟨n, h2, h⟩ := h
        cases n with
        | none => exact hl' h
        | some n =>
          dsimp only at h
          rw [bind_ok_iff] at h
          obtain ⟨v, h3, h⟩ := h
          cases v with
          | none => exact hl' h
          | some v =>
            dsimp only at h
            rw [bind_ok_iff] at h
            obtain ⟨r, h4, h⟩ := h
            cases h
            intro e he
            rcases List.mem_cons.1 he with rfl | he
            · obtain ⟨i, e1, rfl⟩ := readInt_some h1
              obtain ⟨k, e2, rfl⟩ := readInt_some h2
              exact ⟨ho.1 i e1, ho.2 k e2⟩
            · exact hl' h4 e he
    · cases h

theorem fillBoundary_returns {mpol ntor : Int} {es : List Coefficient} (he : ∀ e ∈ es, 0 ≤ e.m ∧ e.n ≠ -2 ^ 31) (a : Mat D)
    (ha : a.rows = mpol ∧ a.cols = 2 * ntor + 1) : Returns (fillBoundary mpol ntor es a) := by
  induction es generalizing a with
  | nil => exact .ok _
  | cons e l ih =>
    have he' := fun e hl => he e (List.mem_cons_of_mem _ hl)
    obtain ⟨h0, h1⟩ := he e (by simp)
    unfold fillBoundary
    split
    · exact ih he' a ha
    · split
      · exact ih he' a ha
      · rename_i g1 g2
        rw [not_lt, abs_le] at g2
        rw [Mat.set_ok _ _ _ _ (by rw [ha.1, ha.2]; omega), Outcome.bind_ok]
        exact ih he' _ ha

theorem readBoundary_safe (hs : SafeModes j name) {es : List Coefficient} (h : readBoundary j name = .ok (some es)) : ∀ e ∈ es, 0 ≤ e.m ∧ e.n ≠ -2 ^ 31 := by
  unfold readBoundary at h
  split at h
  · cases h
  · rename_i l e
    rw [bind_ok_iff] at h
    obtain ⟨r, h1, h2⟩ := h
    cases h2
    exact boundaryEntries_safe (fun o ho => hs l o e ho) h1
  · cases h

theorem readBoundary_returns : Returns (readBoundary j name) := by
  unfold readBoundary
  split
  · exact .ok _
  · exact (boundaryEntries_returns _).bind fun _ _ => .ok _
  · exact .status _

theorem returns_boundarySym (hs : SafeModes j name) {d : Indata} (hm : 0 ≤ d.mpol) (hn : 0 ≤ d.ntor) (old : Mat D) : Returns (readBoundarySym j name d old) := by
  unfold readBoundarySym
  refine readBoundary_returns.bind fun x hx => ?_
  cases x with
  | none => exact .ok _
  | some l =>
    dsimp only
    unfold Mat.zero
    rw [if_pos (by omega), Outcome.bind_ok]
    exact fillBoundary_returns (readBoundary_safe hs hx) _ ⟨rfl, rfl⟩

theorem returns_boundaryAsym (hs : SafeModes j name) {d : Indata} (z : Mat D) (hz : z.rows = d.mpol ∧ z.cols = 2 * d.ntor + 1) : Returns (readBoundaryAsym j name d z) := by
  unfold readBoundaryAsym
  refine readBoundary_returns.bind fun x hx => ?_
  cases x with
  | none => exact .ok _
  | some l => exact fillBoundary_returns (readBoundary_safe hs hx) _ hz

theorem returns_axisOpt {ntor : Int} {old : Option (List D)} (h : j name ≠ none) : Returns (readAxisOpt j name ntor old) := by
  unfold readAxisOpt
  refine returns_readVectorDouble.bind fun x hx => ?_
  cases x with
  | none =>
    unfold readVectorDouble at hx
    split at hx
    · contradiction
    · rw [bind_ok_iff] at hx
      obtain ⟨_, _, h2⟩ := hx
      cases h2
    · cases hx
  | some v => exact Returns.bind (.ok _) fun _ _ => returns_pad.bind fun _ _ => .ok _

end

/-- state of the reader between the sections -/
structure Between (j : Obj) (d : Indata) : Prop where
  mpol : 0 ≤ d.mpol
  ntor : 0 ≤ d.ntor
  lens : Matching d
  asym : d.lasym = true → j "lasym" = some (.bool true)

section
variable {j : Obj}

theorem Between.first (S : Safe j) : Returns (readResolution j init) ∧ ∀ d, readResolution j init = .ok d → Between j d := by
  constructor
  · unfold readResolution
    exact (returns_field returns_readBool).bind fun _ _ => (returns_field returns_readInt).bind fun _ _ => (returns_field returns_readInt).bind fun _ _ =>
      (returns_field returns_readInt).bind fun _ _ => (returns_field returns_readInt).bind fun _ _ => (returns_field returns_readInt).bind fun _ _ =>
      (returns_field returns_readInt).bind fun _ _ => (returns_field returns_readInt).bind fun _ _ => .ok _
  · intro d h
    unfold readResolution at h
    simp only [bind_ok_iff] at h
    obtain ⟨v1, h1, v2, h2, v3, h3, v4, h4, v5, h5, v6, h6, v7, h7, v8, h8, h⟩ := h
    cases h
    refine ⟨?_, ?_, ⟨rfl, rfl, rfl, rfl, rfl⟩, ?_⟩
    · exact field_inv (fun v => 0 ≤ v) h3 (by decide) fun x hx => by
        obtain ⟨i, e, rfl⟩ := readInt_some hx
        exact S.mpol i e
    · exact field_inv (fun v => 0 ≤ v) h4 (by decide) fun x hx => by
        obtain ⟨i, e, rfl⟩ := readInt_some hx
        exact S.ntor i e
    · exact field_inv (fun v => v = true → j "lasym" = some (.bool true)) h1 (fun q => by simp [init] at q) fun x hx hq => by
        subst hq
        unfold readBool at hx
        split at hx
        · cases hx
        · rename_i b e; cases hx; exact e
        · cases hx

theorem Between.grids {c : Indata} (B : Between j c) : Returns (readGrids j c) ∧ ∀ d, readGrids j c = .ok d → Between j d := by
  constructor
  · unfold readGrids
    exact (returns_field returns_readVectorInt).bind fun _ _ => (returns_field returns_readVectorDouble).bind fun _ _ => (returns_reject _ _).bind fun _ _ =>
      (returns_field returns_readVectorInt).bind fun _ _ => (returns_reject _ _).bind fun _ _ => .ok _
  · intro d h
    unfold readGrids at h
    simp only [bind_ok_iff, exists_unit] at h
    obtain ⟨v1, h1, v2, h2, r1, v3, h3, r2, h⟩ := h
    cases h
    exact { B with lens := { B.lens with ftol := reject_eq_inv r1, niter := reject_eq_inv r2 } }

theorem Between.mass {c : Indata} (B : Between j c) : Returns (readMass j c) ∧ ∀ d, readMass j c = .ok d → Between j d := by
  constructor
  · unfold readMass
    exact (returns_field returns_readDouble).bind fun _ _ => (returns_field returns_readInt).bind fun _ _ => (returns_field returns_readString).bind fun _ _ =>
      (returns_field returns_readVectorDouble).bind fun _ _ => (returns_field returns_readVectorDouble).bind fun _ _ =>
      (returns_field returns_readVectorDouble).bind fun _ _ => (returns_reject _ _).bind fun _ _ => (returns_field returns_readDouble).bind fun _ _ =>
      (returns_field returns_readDouble).bind fun _ _ => (returns_field returns_readDouble).bind fun _ _ => .ok _
  · intro d h
    unfold readMass at h
    simp only [bind_ok_iff, exists_unit] at h
    obtain ⟨v1, h1, v2, h2, v3, h3, v4, h4, v5, h5, v6, h6, r1, v7, h7, v8, h8, v9, h9, h⟩ := h
    cases h
    exact { B with lens := { B.lens with am := reject_eq_inv r1 } }

theorem Between.iota {c : Indata} (B : Between j c) : Returns (readIota j c) ∧ ∀ d, readIota j c = .ok d → Between j d := by
  constructor
  · unfold readIota
    exact (returns_field returns_readString).bind fun _ _ => (returns_field returns_readVectorDouble).bind fun _ _ =>
      (returns_field returns_readVectorDouble).bind fun _ _ => (returns_field returns_readVectorDouble).bind fun _ _ => (returns_reject _ _).bind fun _ _ => .ok _
  · intro d h
    unfold readIota at h
    simp only [bind_ok_iff, exists_unit] at h
    obtain ⟨v1, h1, v2, h2, v3, h3, v4, h4, r1, h⟩ := h
    cases h
    exact { B with lens := { B.lens with ai := reject_eq_inv r1 } }

theorem Between.current {c : Indata} (B : Between j c) : Returns (readCurrent j c) ∧ ∀ d, readCurrent j c = .ok d → Between j d := by
  constructor
  · unfold readCurrent
    exact (returns_field returns_readString).bind fun _ _ => (returns_field returns_readVectorDouble).bind fun _ _ =>
      (returns_field returns_readVectorDouble).bind fun _ _ => (returns_field returns_readVectorDouble).bind fun _ _ => (returns_reject _ _).bind fun _ _ =>
      (returns_field returns_readDouble).bind fun _ _ => (returns_field returns_readDouble).bind fun _ _ => .ok _
  · intro d h
    unfold readCurrent at h
    simp only [bind_ok_iff, exists_unit] at h
    obtain ⟨v1, h1, v2, h2, v3, h3, v4, h4, r1, v5, h5, v6, h6, h⟩ := h
    cases h
    exact { B with lens := { B.lens with ac := reject_eq_inv r1 } }

theorem Between.freeBoundary {c : Indata} (B : Between j c) : Returns (readFreeBoundary j c) ∧ ∀ d, readFreeBoundary j c = .ok d → Between j d := by
  constructor
  · unfold readFreeBoundary
    exact (returns_field returns_readBool).bind fun _ _ => (returns_field returns_readString).bind fun _ _ => (returns_field returns_readVectorDouble).bind fun _ _ =>
      (returns_field returns_readInt).bind fun _ _ => (returns_enum returns_method).bind fun _ _ => .ok _
  · intro d h
    unfold readFreeBoundary at h
    simp only [bind_ok_iff] at h
    obtain ⟨v1, h1, v2, h2, v3, h3, v4, h4, v5, h5, h⟩ := h
    cases h
    exact { B with lens := { B.lens with } }

theorem Between.tweaks {c : Indata} (B : Between j c) : Returns (readTweaks j c) ∧ ∀ d, readTweaks j c = .ok d → Between j d := by
  constructor
  · unfold readTweaks
    exact (returns_field returns_readInt).bind fun _ _ => (returns_field returns_readVectorDouble).bind fun _ _ => (returns_field returns_readDouble).bind fun _ _ =>
      (returns_field returns_readDouble).bind fun _ _ => (returns_field returns_readBool).bind fun _ _ => (returns_enum returns_style).bind fun _ _ =>
      (returns_field returns_readBool).bind fun _ _ => .ok _
  · intro d h
    unfold readTweaks at h
    simp only [bind_ok_iff] at h
    obtain ⟨v1, h1, v2, h2, v3, h3, v4, h4, v5, h5, v6, h6, v7, h7, h⟩ := h
    cases h
    exact { B with lens := { B.lens with } }

theorem Between.axis {c : Indata} (B : Between j c) (S : Safe j) : Returns (readAxis j c) ∧ ∀ d, readAxis j c = .ok d →
    Between j d ∧ (d.lasym = true → d.raxis_s.isSome ∧ d.zaxis_c.isSome) := by
  constructor
  · unfold readAxis
    refine (returns_field returns_readVectorDouble).bind fun _ _ => returns_pad.bind fun _ _ => (returns_field returns_readVectorDouble).bind fun _ _ =>
      returns_pad.bind fun _ _ => ?_
    split
    · rename_i hl
      obtain ⟨q1, q2⟩ := S.axis (B.asym hl)
      exact (returns_axisOpt q1).bind fun _ _ => (returns_axisOpt q2).bind fun _ _ => .ok _
    · exact .ok _
  · intro d h
    unfold readAxis at h
    simp only [bind_ok_iff] at h
    obtain ⟨v1, h1, v2, h2, v3, h3, v4, h4, h⟩ := h
    cases hl : c.lasym
    · rw [hl, if_neg (by simp)] at h
      cases h
      exact ⟨{ B with lens := { B.lens with }, asym := fun q => by simp [hl] at q }, fun q => by simp [hl] at q⟩
    · rw [hl, if_pos rfl] at h
      simp only [bind_ok_iff] at h
      obtain ⟨v5, h5, v6, h6, h⟩ := h
      cases h
      refine ⟨{ B with lens := { B.lens with }, asym := fun _ => B.asym hl }, fun _ => ⟨?_, ?_⟩⟩
      · unfold readAxisOpt at h5
        simp only [bind_ok_iff] at h5
        obtain ⟨_, _, _, _, _, _, h7⟩ := h5
        cases h7; rfl
      · unfold readAxisOpt at h6
        simp only [bind_ok_iff] at h6
        obtain ⟨_, _, _, _, _, _, h7⟩ := h6
        cases h7; rfl

theorem Between.boundaries {c : Indata} (B : Between j c) (S : Safe j) (hx : c.lasym = true → c.raxis_s.isSome ∧ c.zaxis_c.isSome) :
    Returns (readBoundaries j c) ∧ ∀ d, readBoundaries j c = .ok d → Readable d := by
  have hm := B.mpol
  have hn := B.ntor
  constructor
  · unfold readBoundaries
    refine (returns_boundarySym S.rbc hm hn _).bind fun _ _ => (returns_boundarySym S.zbs hm hn _).bind fun _ _ => ?_
    split
    · unfold Mat.zero
      rw [if_pos (by omega), Outcome.bind_ok]
      exact (returns_boundaryAsym S.rbs _ ⟨rfl, rfl⟩).bind fun _ _ => (returns_boundaryAsym S.zbc _ ⟨rfl, rfl⟩).bind fun _ _ => .ok _
    · exact .ok _
  · intro d h
    unfold readBoundaries at h
    simp only [bind_ok_iff] at h
    obtain ⟨v1, h1, v2, h2, h⟩ := h
    cases hl : c.lasym
    · rw [hl, if_neg (by simp)] at h
      cases h
      exact ⟨B.lens.ftol.ge, B.lens.niter.ge, fun q => by simp [hl] at q⟩
    · rw [hl, if_pos rfl] at h
      simp only [bind_ok_iff] at h
      obtain ⟨z, hz, v5, h5, v6, h6, h⟩ := h
      cases h
      exact ⟨B.lens.ftol.ge, B.lens.niter.ge, fun _ => ⟨(hx hl).1, (hx hl).2, rfl, rfl⟩⟩

end

/-- **C66** (partial): the reader returns an input or an error status for every document in which the resolution and the poloidal
modes are not negative, no toroidal mode is the smallest `int`, and asymmetric inputs come with their axis.  Missing: the other
documents, for which the claim is false. -/
theorem C66_returns_partial {j : Obj} (S : Safe j) : Returns (fromDoc (.obj j)) := by
  unfold fromDoc
  dsimp only
  obtain ⟨r1, k1⟩ := Between.first S
  refine r1.bind fun d1 h1 => ?_
  obtain ⟨r2, k2⟩ := (k1 d1 h1).grids
  refine r2.bind fun d2 h2 => ?_
  obtain ⟨r3, k3⟩ := (k2 d2 h2).mass
  refine r3.bind fun d3 h3 => ?_
  obtain ⟨r4, k4⟩ := (k3 d3 h3).iota
  refine r4.bind fun d4 h4 => ?_
  obtain ⟨r5, k5⟩ := (k4 d4 h4).current
  refine r5.bind fun d5 h5 => ?_
  obtain ⟨r6, k6⟩ := (k5 d5 h5).freeBoundary
  refine r6.bind fun d6 h6 => ?_
  obtain ⟨r7, k7⟩ := (k6 d6 h6).tweaks
  refine r7.bind fun d7 h7 => ?_
  obtain ⟨r8, k8⟩ := (k7 d7 h7).axis S
  refine r8.bind fun d8 h8 => ?_
  obtain ⟨r9, k9⟩ := (k8 d8 h8).1.boundaries S (k8 d8 h8).2
  refine r9.bind fun d9 h9 => ?_
  exact (C23_returns_partial d9 false (k9 d9 h9)).bind fun _ _ => .ok _

/-- **C66**: an input that is returned meets the documented constraints, its arrays have matching lengths and all values are finite
and of their types -/
theorem C66_accepted {dump : Json → String} {parse : String → Option Json} (T : TextLayer dump parse) {text : String} {d : Indata}
    (h : fromJson parse text = .ok d) : Documented d ∧ Matching d ∧ Plain d := by
  unfold fromJson at h
  split at h
  · cases h
  · rename_i doc e
    obtain ⟨G, hd⟩ := fromDoc_good (T.finite _ _ e) h
    exact ⟨hd, G.lens, G.plain⟩

/-- an object with the given members -/
def table (l : List (String × Json)) : Obj := fun k => l.lookup k

/-- the call returns a value that passes a test -/
def okAnd {α : Type} (x : Outcome α) (p : α → Bool) : Bool :=
  match x with
  | .ok a => p a
  | _ => false

theorem okAnd_iff {α : Type} {x : Outcome α} {p : α → Bool} (h : okAnd x p = true) : ∃ a, x = .ok a ∧ p a = true := by
  cases x with
  | ok a => exact ⟨a, rfl, h⟩
  | _ => simp [okAnd] at h

/-- a document that is read -/
def sampleDoc : Obj := table [("lasym", .bool true), ("mpol", .int 3), ("ntor", .int 1), ("raxis_s", .arr [.float (.fin 1)]), ("zaxis_c", .arr []),
  ("zbs", .arr []), ("rbc", .arr [.obj (table [("m", .int 1), ("n", .int (-1)), ("value", .float (.fin 2))]), .obj (table [("m", .int 9), ("n", .int 0), ("value", .int 1)])])]

example : Safe sampleDoc := by
  have hm : ∀ name, name ≠ "rbc" → SafeModes sampleDoc name := by
    intro name hn l o h
    simp only [sampleDoc, table, List.lookup_cons, List.lookup_nil] at h
    repeat' split at h
    all_goals simp_all
    all_goals (subst h; simp)
  refine ⟨?_, ?_, ?_, hm _ (by decide), hm _ (by decide), hm _ (by decide), ?_⟩
  · rintro i ⟨⟩; decide
  · rintro i ⟨⟩; decide
  · rintro l o ⟨⟩ ho
    simp only [List.mem_cons, Json.obj.injEq, List.not_mem_nil, or_false] at ho
    rcases ho with rfl | rfl
    · exact ⟨by rintro i ⟨⟩; decide, by rintro i ⟨⟩; decide⟩
    · exact ⟨by rintro i ⟨⟩; decide, by rintro i ⟨⟩; decide⟩
  · intro _
    exact ⟨by simp [sampleDoc, table], by simp [sampleDoc, table]⟩

example : ∃ d, fromDoc (.obj sampleDoc) = .ok d ∧ d.rbc.val 1 0 = .fin 2 ∧ d.raxis_s = some [.fin 1, .fin 0] := by
  simpa using okAnd_iff (p := fun d => decide (d.rbc.val 1 0 = .fin 2) && decide (d.raxis_s = some [.fin 1, .fin 0])) (x := fromDoc (.obj sampleDoc)) (by decide +kernel)

/-- the documents that are missing: a negative poloidal mode is written before the start of the array ... -/
theorem C66_negative_mode_ub : ∃ w, fromDoc (.obj (table [("rbc", .arr [.obj (table [("m", .int (-1)), ("n", .int 0), ("value", .float (.fin 1))])])])) = .ub w :=
  ⟨_, rfl⟩

/-- ... the absolute value of the smallest toroidal mode does not exist ... -/
theorem C66_smallest_mode_ub :
    ∃ w, fromDoc (.obj (table [("rbc", .arr [.obj (table [("m", .int 0), ("n", .int (-2 ^ 31)), ("value", .float (.fin 1))])])])) = .ub w := ⟨_, rfl⟩

/-- ... a negative resolution is used before it is checked ... -/
theorem C66_negative_resolution_ub : ∃ w, fromDoc (.obj (table [("mpol", .int (-1)), ("rbc", .arr [])])) = .ub w := ⟨_, rfl⟩

/-- ... and an asymmetric input without its axis throws -/
theorem C66_missing_axis_throws : ∃ w, fromDoc (.obj (table [("lasym", .bool true)])) = .throws w := ⟨_, rfl⟩

/-- integers are read modulo 2^32 without an error: this document asks for 4294967297 field periods and 1 is used -/
theorem C66_integers_wrap : ∃ d, fromDoc (.obj (table [("nfp", .int 4294967297)])) = .ok d ∧ d.nfp = 1 := by
  simpa using okAnd_iff (p := fun d => decide (d.nfp = 1)) (x := fromDoc (.obj (table [("nfp", .int 4294967297)]))) (by decide +kernel)

end Verif.Indata
