import Verif.OutputIo.Wout

/-!
# Loading a file of the former layout

The former layout as described by the comments in `WOutFileContents::LoadInto` (`output_quantities.cc:934-943`, `968-969`, `1012-1013`,
`1028-1029`, `1067-1070`, `1089-1094`): some members had other names, the version was text, the arrays on the half grid had no entry for
the axis, and the two-dimensional arrays had one row per surface.  `bsubsmns_full` and `bsubsmnc_full` are read as they are stored.
-/
namespace Verif.OutputIo
open Verif Verif.Indata

/-- members and their former names -/
def oldNames : List (String × String) := [
  ("signgs", "sign_of_jacobian"), ("niter", "maximum_iterations"), ("betatotal", "betatot"), ("volavgB", "VolAvgB"),
  ("volume", "volume_p"), ("iotaf", "iota_full"), ("q_factor", "safety_factor"), ("presf", "pressure_full"), ("phi", "toroidal_flux"),
  ("chi", "poloidal_flux"), ("specw", "spectral_width"), ("DShear", "Dshear"), ("DWell", "Dwell"), ("DCurr", "Dcurr"),
  ("DGeod", "Dgeod"), ("raxis_cc", "raxis_c"), ("zaxis_cs", "zaxis_s"), ("raxis_cs", "raxis_s"), ("zaxis_cc", "zaxis_c")]

/-- one-dimensional members on the half grid and their former names -/
def oldHalf : List (String × String) := [
  ("iotas", "iota_half"), ("mass", "mass"), ("pres", "pressure_half"), ("beta_vol", "beta"), ("buco", "buco"), ("bvco", "bvco"),
  ("vp", "dVds"), ("phips", "phips"), ("over_r", "overr")]

/-- two-dimensional members that had one row per surface, with the axis -/
def oldFull : List String := ["rmnc", "zmns", "lmns_full", "rmns", "zmnc", "lmnc_full", "bsubsmns", "bsubsmnc",
  "currumnc", "currvmnc", "currumns", "currvmns"]

/-- two-dimensional members that had one row per surface of the half grid -/
def oldHalfArrays : List String := ["lmns", "gmnc", "bmnc", "bsubumnc", "bsubvmnc", "bsupumnc", "bsupvmnc",
  "lmnc", "gmns", "bmns", "bsubumns", "bsubvmns", "bsupumns", "bsupvmns"]

/-- without the axis, one row per surface -/
def dropAxis (a : Mat D) : Mat D := if a.rows = 0 then a else ⟨a.cols - 1, a.rows, fun j i => a.val i (j + 1)⟩

def oldTurn : Val → Val
  | .matrix a => .matrix (transpose a)
  | v => v

def oldDrop : Val → Val
  | .matrix a => .matrix (dropAxis a)
  | .doubles l => .doubles l.tail
  | v => v

/-- the group `/wout` of a file of the former layout for the object `o`, with the text `v` as version -/
def oldFile (v : String) (o : Obj) (x : String) : Option Val :=
  if x = "version" then some (.str v)
  else if x = "version_" then none
  else
    match oldNames.find? (fun p => p.2 = x) with
    | some p => some (o p.1)
    | none =>
      match oldHalf.find? (fun p => p.2 = x) with
      | some p => some (oldDrop (o p.1))
      | none =>
        if x ∈ oldNames.map Prod.fst ∨ x ∈ oldHalf.map Prod.fst then none
        else if x ∈ oldFull then some (oldTurn (o x))
        else if x ∈ oldHalfArrays then some (oldDrop (o x))
        else if x ∈ names wOutFileContents then some (o x)
        else none

/-- equal contents -/
def SameVal : Val → Val → Prop
  | .matrix a, .matrix b => a.Same b
  | v, w => v = w

/-- the entries for the axis on the half grid are zero -/
structure OldWout (o : Obj) (ns mnmax nyq : Int) (free : Bool) : Prop extends Wout o ns mnmax nyq free where
  modes : 1 ≤ mnmax ∧ 1 ≤ nyq
  half : ∀ p ∈ oldHalf, ∃ l, o p.1 = .doubles (0 :: l)
  halfArrays : ∀ x ∈ oldHalfArrays, ∀ a, o x = .matrix a → ∀ i, 0 ≤ i → i < a.rows → a.val i 0 = 0

/-- what is loaded from the file of the former layout -/
def gotOld (ver : D) (o : Obj) (ns : Int) (free : Bool) : Obj := fun x =>
  if x = "version_" then .double ver
  else if free = false ∧ x = "nextcur" then .int 0
  else if free = false ∧ x = "extcur" then .doubles []
  else if x ∈ oldFull then
    match o x with
    | .matrix a => .matrix (if a.rows = 0 then transpose a else a)
    | v => v
  else if x ∈ oldHalfArrays then
    match o x with
    | .matrix a => .matrix (if a.rows = 0 then a else padLeft (dropAxis a) ns a.rows)
    | v => v
  else o x

/-- a member that the former layout stored under the same name in the same form -/
def kept (x : String) : Bool :=
  x ≠ "version" ∧ x ≠ "version_" ∧ oldNames.find? (fun p => p.2 = x) = none ∧ oldHalf.find? (fun p => p.2 = x) = none ∧
    x ∉ oldNames.map Prod.fst ∧ x ∉ oldHalf.map Prod.fst ∧ x ∉ oldFull ∧ x ∉ oldHalfArrays ∧ x ∈ names wOutFileContents

/-- a member that the former layout stored under another name -/
def moved (x old : String) : Bool :=
  old ≠ "version" ∧ old ≠ "version_" ∧ oldNames.find? (fun p => p.2 = old) = some (x, old) ∧ x ≠ "version" ∧ x ≠ "version_" ∧
    oldNames.find? (fun p => p.2 = x) = none ∧ oldHalf.find? (fun p => p.2 = x) = none ∧ x ∈ oldNames.map Prod.fst ∧ x ∉ oldFull ∧
    x ∉ oldHalfArrays ∧ x ≠ "nextcur" ∧ x ≠ "extcur"

def isArray (x : String) : Bool :=
  x ≠ "version" ∧ x ≠ "version_" ∧ oldNames.find? (fun p => p.2 = x) = none ∧ oldHalf.find? (fun p => p.2 = x) = none ∧
    x ∉ oldNames.map Prod.fst ∧ x ∉ oldHalf.map Prod.fst ∧ x ≠ "nextcur" ∧ x ≠ "extcur"

def legitOld : Step → Bool
  | .member x k => (x, k) ∈ wOutFileContents ∧ kept x = true ∧ x ≠ "nextcur" ∧ x ≠ "extcur"
  | .renamed x old k => (x, k) ∈ wOutFileContents ∧ moved x old = true
  | .orZeros _ _ => false
  | .turned x => isArray x = true ∧ x ∈ oldFull ∧ x ∈ geometryArrays
  | .turnedPadded x size => isArray x = true ∧ ((x ∈ geometryArrays ∧ size = "mnmax") ∨ (x ∈ fieldArrays ∧ size = "mnmax_nyq")) ∧
      (x ∈ oldFull ∨ (x ∉ oldFull ∧ x ∈ oldHalfArrays))
  | .turnedIfThere x => isArray x = true ∧ x ∈ oldFull ∧ x ∈ fieldArrays
  | _ => true

theorem wout_legitOld : ∀ s ∈ woutSteps, legitOld s = true := by decide +kernel

theorem oldFile_kept {v : String} {o : Obj} {x : String} (h : kept x = true) : oldFile v o x = some (o x) := by
  simp only [kept, decide_eq_true_eq] at h
  obtain ⟨h1, h2, h3, h4, h5, h6, h7, h8, h9⟩ := h
  unfold oldFile
  rw [if_neg h1, if_neg h2, h3, h4]
  simp only
  rw [if_neg (by simp only [not_or]; exact ⟨h5, h6⟩), if_neg h7, if_neg h8, if_pos h9]

theorem gotOld_kept {ver : D} {o : Obj} {ns : Int} {free : Bool} {x : String} (h : kept x = true) (h1 : x ≠ "nextcur" ∨ free = true)
    (h2 : x ≠ "extcur" ∨ free = true) : gotOld ver o ns free x = o x := by
  simp only [kept, decide_eq_true_eq] at h
  unfold gotOld
  rw [if_neg h.2.1, if_neg, if_neg, if_neg h.2.2.2.2.2.2.1, if_neg h.2.2.2.2.2.2.2.1]
  · rintro ⟨h3, h4⟩
    rcases h2 with h2 | h2
    · exact h2 h4
    · rw [h2] at h3; cases h3
  · rintro ⟨h3, h4⟩
    rcases h1 with h1 | h1
    · exact h1 h4
    · rw [h1] at h3; cases h3

theorem oldFile_array {v : String} {o : Obj} {x : String} (h : isArray x = true) : oldFile v o x =
    if x ∈ oldFull then some (oldTurn (o x)) else if x ∈ oldHalfArrays then some (oldDrop (o x))
    else if x ∈ names wOutFileContents then some (o x) else none := by
  simp only [isArray, decide_eq_true_eq] at h
  obtain ⟨h1, h2, h3, h4, h5, h6, _⟩ := h
  unfold oldFile
  rw [if_neg h1, if_neg h2, h3, h4]
  simp only
  rw [if_neg (by simp only [not_or]; exact ⟨h5, h6⟩)]

theorem gotOld_full {ver : D} {o : Obj} {ns : Int} {free : Bool} {x : String} {a : Mat D} (h : isArray x = true) (hx : x ∈ oldFull)
    (ha : o x = .matrix a) : gotOld ver o ns free x = .matrix (if a.rows = 0 then transpose a else a) := by
  simp only [isArray, decide_eq_true_eq] at h
  unfold gotOld
  rw [if_neg h.2.1, if_neg fun h' => h.2.2.2.2.2.2.1 h'.2, if_neg fun h' => h.2.2.2.2.2.2.2 h'.2, if_pos hx, ha]

theorem gotOld_half {ver : D} {o : Obj} {ns : Int} {free : Bool} {x : String} {a : Mat D} (h : isArray x = true) (hf : x ∉ oldFull)
    (hx : x ∈ oldHalfArrays) (ha : o x = .matrix a) :
    gotOld ver o ns free x = .matrix (if a.rows = 0 then a else padLeft (dropAxis a) ns a.rows) := by
  simp only [isArray, decide_eq_true_eq] at h
  unfold gotOld
  rw [if_neg h.2.1, if_neg fun h' => h.2.2.2.2.2.2.1 h'.2, if_neg fun h' => h.2.2.2.2.2.2.2 h'.2, if_neg hf, if_pos hx, ha]

theorem full_array {a : Mat D} {mn ns p q : Int} (hs : 2 ≤ ns) (hm : 1 ≤ mn) (ha : Sized a mn ns) (hp : mn = p ∨ mn = q) :
    (if (transpose a).rows = ns ∧ ((transpose a).cols = p ∨ (transpose a).cols = q) then transpose (transpose a) else transpose a) =
      if a.rows = 0 then transpose a else a := by
  have e1 : (transpose a).rows = a.cols := rfl
  have e2 : (transpose a).cols = a.rows := rfl
  rw [e1, e2]
  rcases ha with ⟨h1, h2⟩ | ⟨h1, h2⟩
  · rw [if_pos ⟨h2, by omega⟩, if_neg (by omega)]
    rfl
  · rw [if_neg (by omega), if_pos h1]

theorem full_padded {a : Mat D} {mn ns : Int} (hs : 2 ≤ ns) (hm : 1 ≤ mn) (ha : Sized a mn ns) :
    (if (transpose a).rows = ns - 1 ∧ (transpose a).cols = mn then padLeft (transpose a) ns mn
      else if (transpose a).rows = ns ∧ (transpose a).cols = mn then transpose (transpose a) else transpose a) =
      if a.rows = 0 then transpose a else a := by
  have e1 : (transpose a).rows = a.cols := rfl
  have e2 : (transpose a).cols = a.rows := rfl
  rw [e1, e2]
  rcases ha with ⟨h1, h2⟩ | ⟨h1, h2⟩
  · rw [if_neg (by omega), if_pos ⟨h2, h1⟩, if_neg (by omega)]
    rfl
  · rw [if_neg (by omega), if_neg (by omega), if_pos h1]

theorem half_padded {a : Mat D} {mn ns : Int} (hs : 2 ≤ ns) (hm : 1 ≤ mn) (ha : Sized a mn ns) :
    (if (dropAxis a).rows = ns - 1 ∧ (dropAxis a).cols = mn then padLeft (dropAxis a) ns mn
      else if (dropAxis a).rows = ns ∧ (dropAxis a).cols = mn then transpose (dropAxis a) else dropAxis a) =
      if a.rows = 0 then a else padLeft (dropAxis a) ns a.rows := by
  rcases ha with ⟨h1, h2⟩ | ⟨h1, h2⟩
  · have e0 : dropAxis a = ⟨a.cols - 1, a.rows, fun j i => a.val i (j + 1)⟩ := by
      unfold dropAxis
      rw [if_neg (by omega)]
    have e1 : (dropAxis a).rows = a.cols - 1 := by rw [e0]
    have e2 : (dropAxis a).cols = a.rows := by rw [e0]
    rw [if_pos ⟨by omega, by omega⟩, if_neg (by omega), h1]
  · have e0 : dropAxis a = a := by
      unfold dropAxis
      rw [if_pos h1]
    rw [e0, if_neg (by omega), if_neg (by omega), if_pos h1]

theorem old_sound {stod : String → Outcome D} {v : String} {ver : D} (hv : stod v = .ok ver) {o : Obj} {ns mnmax nyq : Int} {free : Bool}
    (w : OldWout o ns mnmax nyq free) (s : Step) (hs : legitOld s = true) : Sound stod (oldFile v o) (gotOld ver o ns free) s := by
  intro m hm
  have k1 : kept "ns" = true ∧ kept "mnmax" = true ∧ kept "mnmax_nyq" = true ∧ kept "lfreeb" = true ∧ kept "nextcur" = true ∧
      kept "extcur" = true := by decide +kernel
  have g1 : gotOld ver o ns free "ns" = .int ns := by rw [gotOld_kept k1.1 (.inl (by decide)) (.inl (by decide)), w.ns_eq]
  have g2 : gotOld ver o ns free "mnmax" = .int mnmax := by rw [gotOld_kept k1.2.1 (.inl (by decide)) (.inl (by decide)), w.mnmax_eq]
  have g3 : gotOld ver o ns free "mnmax_nyq" = .int nyq := by
    rw [gotOld_kept k1.2.2.1 (.inl (by decide)) (.inl (by decide)), w.nyq_eq]
  have g4 : gotOld ver o ns free "lfreeb" = .bool free := by
    rw [gotOld_kept k1.2.2.2.1 (.inl (by decide)) (.inl (by decide)), w.free_eq]
  cases s with
  | member x k =>
    simp only [legitOld, decide_eq_true_eq] at hs
    obtain ⟨h0, h1, h2, h3⟩ := hs
    have g := gotOld_kept (ver := ver) (o := o) (ns := ns) (free := free) h1 (.inl h2) (.inl h3)
    exact readMember_sound m (by rw [oldFile_kept h1, g]) (by rw [g]; exact w.typed _ h0)
  | renamed x old k =>
    simp only [legitOld, decide_eq_true_eq] at hs
    obtain ⟨h0, h1⟩ := hs
    simp only [moved, decide_eq_true_eq] at h1
    obtain ⟨a1, a2, a3, a4, a5, a6, a7, a8, a9, a10, a11, a12⟩ := h1
    have e1 : oldFile v o x = none := by
      unfold oldFile
      rw [if_neg a4, if_neg a5, a6, a7]
      simp only
      rw [if_pos (Or.inl a8)]
    have e2 : oldFile v o old = some (o x) := by
      unfold oldFile
      rw [if_neg a1, if_neg a2, a3]
    have g : gotOld ver o ns free x = o x := by
      unfold gotOld
      rw [if_neg a5, if_neg fun h' => a11 h'.2, if_neg fun h' => a12 h'.2, if_neg a9, if_neg a10]
    simp only [exec]
    rw [e1, e2, if_neg (by simp), readAs_ok (w.typed _ h0), Outcome.bind_ok]
    congr 1
    exact put_eq_override _ _ _ _ g.symm
  | orZeros x ref => simp [legitOld] at hs
  | version =>
    have e1 : oldFile v o "version_" = none := by
      unfold oldFile
      rw [if_neg (by decide), if_pos rfl]
    have e2 : oldFile v o "version" = some (.str v) := by
      unfold oldFile
      rw [if_pos rfl]
    simp only [exec]
    rw [e1, e2, if_neg (by simp), readAs_ok (by rfl : (Val.str v).kind = .str), Outcome.bind_ok]
    simp only [hv, Outcome.bind_ok]
    congr 1
    refine put_eq_override _ _ _ _ ?_
    simp [gotOld]
  | freeBoundary =>
    have hb : m "lfreeb" = .bool free := by rw [hm _ (List.mem_cons_self ..), g4]
    have h0 : ("nextcur", Kind.int) ∈ wOutFileContents ∧ ("extcur", Kind.doubles) ∈ wOutFileContents := by decide +kernel
    cases free with
    | true =>
      simp only [exec, hb]
      refine readMembers_sound _ m ?_ ?_ <;> intro p hp <;> simp only [List.mem_cons, List.not_mem_nil, or_false] at hp <;>
        rcases hp with rfl | rfl
      · rw [oldFile_kept k1.2.2.2.2.1, gotOld_kept k1.2.2.2.2.1 (.inr rfl) (.inr rfl)]
      · rw [oldFile_kept k1.2.2.2.2.2, gotOld_kept k1.2.2.2.2.2 (.inr rfl) (.inr rfl)]
      · rw [gotOld_kept k1.2.2.2.2.1 (.inr rfl) (.inr rfl)]; exact w.typed _ h0.1
      · rw [gotOld_kept k1.2.2.2.2.2 (.inr rfl) (.inr rfl)]; exact w.typed _ h0.2
    | false =>
      simp only [exec, hb]
      rw [show Val.doubles [] = gotOld ver o ns false "extcur" by simp [gotOld], put_eq_override _ _ _ _ rfl,
        show Val.int 0 = gotOld ver o ns false "nextcur" by simp [gotOld], put_eq_override _ _ _ _ rfl, override_append]
      rfl
  | halfGrid =>
    have h0 : ∀ p ∈ oldHalf, p.2 ≠ "version" ∧ p.2 ≠ "version_" ∧ oldNames.find? (fun q => q.2 = p.2) = none ∧
        oldHalf.find? (fun q => q.2 = p.2) = some p ∧ p.1 ≠ "version_" ∧ p.1 ≠ "nextcur" ∧ p.1 ≠ "extcur" ∧ p.1 ∉ oldFull ∧
        p.1 ∉ oldHalfArrays := by decide +kernel
    have h1 : oldFile v o "iotas" = none := by
      have e : oldNames.find? (fun p => p.2 = "iotas") = none ∧ oldHalf.find? (fun p => p.2 = "iotas") = none ∧
        "iotas" ∈ oldHalf.map Prod.fst := by decide +kernel
      unfold oldFile
      rw [if_neg (by decide), if_neg (by decide), e.1, e.2.1]
      simp only
      rw [if_pos (Or.inr e.2.2)]
    have h2 : halfGridOld = oldHalf := by decide +kernel
    simp only [exec]
    rw [h1, if_neg (by simp), h2, readHalfGridCompats_sound oldHalf m]
    · rfl
    · intro p hp
      obtain ⟨l, hl⟩ := w.half p hp
      obtain ⟨a1, a2, a3, a4, a5, a6, a7, a8, a9⟩ := h0 p hp
      refine ⟨l, ?_, ?_⟩
      · unfold oldFile
        rw [if_neg a1, if_neg a2, a3, a4]
        simp only [hl, oldDrop, List.tail_cons]
      · unfold gotOld
        rw [if_neg a5, if_neg fun h' => a6 h'.2, if_neg fun h' => a7 h'.2, if_neg a8, if_neg a9, hl]
  | turned x =>
    simp only [legitOld, decide_eq_true_eq] at hs
    obtain ⟨h0, h1, h2⟩ := hs
    obtain ⟨a, ha, hz⟩ := w.geometry x h2
    have e : oldFile v o x = some (.matrix (transpose a)) := by rw [oldFile_array h0, if_pos h1, ha]; rfl
    simp only [exec]
    rw [readTurned_ok e ((hm _ (by simp [needs])).trans g1) ((hm _ (by simp [needs])).trans g2)
      ((hm _ (by simp [needs])).trans g3), full_array w.surfaces w.modes.1 hz (Or.inl rfl)]
    congr 1
    exact put_eq_override _ _ _ _ (gotOld_full h0 h1 ha).symm
  | turnedPadded x size =>
    simp only [legitOld, decide_eq_true_eq] at hs
    obtain ⟨h0, h1, h2⟩ := hs
    obtain ⟨a, mn, ha, hz, h3, h4⟩ : ∃ a mn, o x = .matrix a ∧ Sized a mn ns ∧ m size = .int mn ∧ 1 ≤ mn := by
      rcases h1 with ⟨h1, rfl⟩ | ⟨h1, rfl⟩
      · obtain ⟨a, ha, hz⟩ := w.geometry x h1
        exact ⟨a, mnmax, ha, hz, (hm _ (by simp [needs])).trans g2, w.modes.1⟩
      · obtain ⟨a, ha, hz⟩ := w.fields x h1
        exact ⟨a, nyq, ha, hz, (hm _ (by simp [needs])).trans g3, w.modes.2⟩
    simp only [exec]
    rcases h2 with h2 | ⟨h2, h5⟩
    · have e : oldFile v o x = some (.matrix (transpose a)) := by rw [oldFile_array h0, if_pos h2, ha]; rfl
      rw [readTurnedPadded_ok e ((hm _ (by simp [needs])).trans g1) h3, full_padded w.surfaces h4 hz]
      congr 1
      exact put_eq_override _ _ _ _ (gotOld_full h0 h2 ha).symm
    · have e : oldFile v o x = some (.matrix (dropAxis a)) := by rw [oldFile_array h0, if_neg h2, if_pos h5, ha]; rfl
      rw [readTurnedPadded_ok e ((hm _ (by simp [needs])).trans g1) h3, half_padded w.surfaces h4 hz]
      congr 1
      exact put_eq_override _ _ _ _ (gotOld_half h0 h2 h5 ha).symm
  | turnedIfThere x =>
    simp only [legitOld, decide_eq_true_eq] at hs
    obtain ⟨h0, h1, h2⟩ := hs
    obtain ⟨a, ha, hz⟩ := w.fields x h2
    have e : oldFile v o x = some (.matrix (transpose a)) := by rw [oldFile_array h0, if_pos h1, ha]; rfl
    simp only [exec]
    rw [if_pos (by rw [e]; rfl), readTurned_ok e ((hm _ (by simp [needs])).trans g1) ((hm _ (by simp [needs])).trans g2)
      ((hm _ (by simp [needs])).trans g3), full_array w.surfaces w.modes.2 hz (Or.inr rfl)]
    congr 1
    exact put_eq_override _ _ _ _ (gotOld_full h0 h1 ha).symm

theorem SameVal.rfl' (v : Val) : SameVal v v := by
  cases v <;> first | rfl | exact ⟨rfl, rfl, fun _ _ _ _ _ _ => rfl⟩

theorem gotOld_same {ver : D} {o : Obj} {ns mnmax nyq : Int} {free : Bool} (w : OldWout o ns mnmax nyq free)
    (hver : o "version_" = .double ver) (h3 : free = false → o "nextcur" = .int 0 ∧ o "extcur" = .doubles []) (x : String) :
    SameVal (gotOld ver o ns free x) (o x) := by
  have hz : ∀ x, x ∈ oldFull ∨ x ∈ oldHalfArrays → x ∈ geometryArrays ∨ x ∈ fieldArrays := by
    have : (∀ x ∈ oldFull, x ∈ geometryArrays ∨ x ∈ fieldArrays) ∧ ∀ x ∈ oldHalfArrays, x ∈ geometryArrays ∨ x ∈ fieldArrays := by
      decide +kernel
    intro x h
    exact h.elim (this.1 x) (this.2 x)
  have hs : ∀ x, x ∈ oldFull ∨ x ∈ oldHalfArrays → ∃ a mn, o x = .matrix a ∧ Sized a mn ns ∧ 1 ≤ mn := by
    intro x h
    rcases hz x h with h | h
    · obtain ⟨a, ha, hz⟩ := w.geometry x h
      exact ⟨a, mnmax, ha, hz, w.modes.1⟩
    · obtain ⟨a, ha, hz⟩ := w.fields x h
      exact ⟨a, nyq, ha, hz, w.modes.2⟩
  unfold gotOld
  split_ifs with c1 c2 c3 c4 c5
  · rw [c1, hver]
    exact SameVal.rfl' _
  · rw [c2.2, (h3 c2.1).1]
    exact SameVal.rfl' _
  · rw [c3.2, (h3 c3.1).2]
    exact SameVal.rfl' _
  · obtain ⟨a, mn, ha, hz, hm⟩ := hs x (Or.inl c4)
    rw [ha]
    rcases hz with ⟨h1, h2⟩ | ⟨h1, h2⟩
    · simp only
      rw [if_neg (by omega)]
      exact SameVal.rfl' _
    · simp only
      rw [if_pos h1]
      refine ⟨?_, ?_, fun i j hi hi' => ?_⟩
      · show a.cols = a.rows
        omega
      · show a.rows = a.cols
        omega
      · have : (transpose a).rows = a.cols := rfl
        omega
  · obtain ⟨a, mn, ha, hz, hm⟩ := hs x (Or.inr c5)
    rw [ha]
    rcases hz with ⟨h1, h2⟩ | ⟨h1, h2⟩
    · simp only
      rw [if_neg (by omega)]
      refine ⟨rfl, h2.symm, ?_⟩
      intro i j hi hi' _ _
      simp only [padLeft] at hi'
      simp only [padLeft, dropAxis]
      rw [if_neg (by omega : ¬ a.rows = 0)]
      simp only
      by_cases hj : j = 0
      · rw [if_pos hj, hj, w.halfArrays x c5 a ha i hi hi']
      · rw [if_neg hj]
        exact congrArg (a.val i) (by omega)
    · simp only
      rw [if_pos h1]
      exact SameVal.rfl' _
  · exact SameVal.rfl' _

end Verif.OutputIo
