import Verif.FieldTable.Model

/-! # C111: Makegrid parameters from files, and the Python mirror of the tables -/
namespace Verif.FieldTable
open Verif Indata

theorem bind_eq_ok {α β : Type} (x : Outcome α) (f : α → Outcome β) (b : β) : (x >>= f) = .ok b ↔ ∃ a, x = .ok a ∧ f a = .ok b := by
  cases x <;> simp

/-! ## Import -/

/-- specification: the entry of an integer parameter. A 64-bit integer is stored in 32 bits. -/
def IntEntry (j : Obj) (name : String) (v : Int) : Prop := ∃ i, j name = some (.int i) ∧ v = i.bmod (2 ^ 32)
/-- specification: the entry of a double parameter; integers are allowed -/
def DoubleEntry (j : Obj) (name : String) (v : D) : Prop := j name = some (.float v) ∨ ∃ i : Int, j name = some (.int i) ∧ v = .fin i

/-- specification of a complete document -/
structure Entries (j : Obj) (p : Params) : Prop where
  normalize : j "normalize_by_currents" = some (.bool p.normalize_by_currents)
  symmetry : j "assume_stellarator_symmetry" = some (.bool p.assume_stellarator_symmetry)
  periods : IntEntry j "number_of_field_periods" p.number_of_field_periods
  rMin : DoubleEntry j "r_grid_minimum" p.r_grid_minimum
  rMax : DoubleEntry j "r_grid_maximum" p.r_grid_maximum
  numR : IntEntry j "number_of_r_grid_points" p.number_of_r_grid_points
  zMin : DoubleEntry j "z_grid_minimum" p.z_grid_minimum
  zMax : DoubleEntry j "z_grid_maximum" p.z_grid_maximum
  numZ : IntEntry j "number_of_z_grid_points" p.number_of_z_grid_points
  numPhi : IntEntry j "number_of_phi_grid_points" p.number_of_phi_grid_points

/-- specification of a usable grid -/
structure Usable (p : Params) : Prop where
  periods : 1 ≤ p.number_of_field_periods
  r : D.le p.r_grid_maximum p.r_grid_minimum = false
  z : D.le p.z_grid_maximum p.z_grid_minimum = false
  numR : 2 ≤ p.number_of_r_grid_points
  numZ : 2 ≤ p.number_of_z_grid_points
  numPhi : 1 ≤ p.number_of_phi_grid_points

theorem isValid_ok (p : Params) : isValid p = .ok () ↔ Usable p := by
  unfold isValid
  constructor
  · intro h
    split_ifs at h with a b c d e f
    exact ⟨by omega, by simpa using b, by simpa using d, by omega, by omega, by omega⟩
  · intro ⟨h1, h2, h3, h4, h5, h6⟩
    rw [if_neg (by omega), if_neg (by simp [h2]), if_neg (by omega), if_neg (by simp [h3]), if_neg (by omega), if_neg (by omega)]

theorem requiredBool (j : Obj) (n : String) (v : Bool) : required (readBool j n) = .ok v ↔ j n = some (.bool v) := by
  unfold readBool
  rcases h : j n with _ | x
  · simp [required]
  · cases x <;> simp [required]

theorem requiredInt (j : Obj) (n : String) (v : Int) : required (readInt j n) = .ok v ↔ IntEntry j n v := by
  unfold readInt IntEntry toInt
  rcases h : j n with _ | x
  · simp [required]
  · cases x <;> simp [required]
    exact eq_comm

theorem requiredDouble (j : Obj) (n : String) (v : D) : required (readDouble j n) = .ok v ↔ DoubleEntry j n v := by
  unfold readDouble DoubleEntry
  rcases h : j n with _ | x
  · simp [required]
  · cases x <;> simp [required]
    exact eq_comm

/-- **C111 (import).** A document is accepted exactly if it is an object in which every one of the ten parameters is present with its type and the grid
they describe is usable; the result are the values in the document. -/
theorem C111_import (doc : Json) (p : Params) : importJson (some doc) = .ok p ↔ ∃ j, doc = .obj j ∧ Entries j p ∧ Usable p := by
  have key (j : Obj) : importObj j = .ok p ↔ Entries j p ∧ Usable p := by
    unfold importObj
    simp only [bind_eq_ok, requiredBool, requiredInt, requiredDouble]
    constructor
    · rintro ⟨a, ha, b, hb, c, hc, d, hd, e, he, f, hf, g, hg, h, hh, i, hi, k, hk, u, hv, hp⟩
      injection hp with hp
      subst hp
      exact ⟨⟨ha, hb, hc, hd, he, hf, hg, hh, hi, hk⟩, (isValid_ok _).1 hv⟩
    · rintro ⟨⟨ha, hb, hc, hd, he, hf, hg, hh, hi, hk⟩, hv⟩
      exact ⟨_, ha, _, hb, _, hc, _, hd, _, he, _, hf, _, hg, _, hh, _, hi, _, hk, (), (isValid_ok p).2 hv, rfl⟩
  have none : ¬ Entries (fun _ => none) p := fun h => by simpa using h.normalize
  unfold importJson
  cases doc with
  | obj j => simp only [key, Json.obj.injEq, exists_eq_left']
  | _ => simp only [key, reduceCtorEq, false_and, exists_false, iff_false, not_and]; exact fun h => absurd h none

/-- a missing or wrong entry is answered by a status, never by anything else -/
theorem readers (j : Obj) (n : String) : (∀ x, required (readBool j n) = x → (∃ v, x = .ok v) ∨ ∃ m, x = .status m) ∧
    (∀ x, required (readInt j n) = x → (∃ v, x = .ok v) ∨ ∃ m, x = .status m) ∧
    (∀ x, required (readDouble j n) = x → (∃ v, x = .ok v) ∨ ∃ m, x = .status m) := by
  unfold readBool readInt readDouble
  rcases h : j n with _ | x
  · simp [required]
  · refine ⟨?_, ?_, ?_⟩ <;> (cases x <;> simp [required])

/-- **C111 (errors).** Every document which can be parsed is accepted or answered by a status, which Python sees as an exception. -/
theorem C111_errors (doc : Json) : (∃ p, importJson (some doc) = .ok p ∧ pyFromFile (some (some doc)) = .ok p) ∨
    ∃ m, importJson (some doc) = .status m ∧ pyFromFile (some (some doc)) = .throws m := by
  have b {α β : Type} {x : Outcome α} {f : α → Outcome β} (hx : (∃ v, x = .ok v) ∨ ∃ m, x = .status m)
      (hf : ∀ v, (∃ w, f v = .ok w) ∨ ∃ m, f v = .status m) : (∃ w, (x >>= f) = .ok w) ∨ ∃ m, (x >>= f) = .status m := by
    rcases hx with ⟨v, rfl⟩ | ⟨m, rfl⟩
    · exact hf v
    · exact Or.inr ⟨m, rfl⟩
  have key (j : Obj) : (∃ p, importObj j = .ok p) ∨ ∃ m, importObj j = .status m := by
    unfold importObj
    refine b ((readers j _).1 _ rfl) fun _ => b ((readers j _).1 _ rfl) fun _ => b ((readers j _).2.1 _ rfl) fun _ => b ((readers j _).2.2 _ rfl) fun _ =>
      b ((readers j _).2.2 _ rfl) fun _ => b ((readers j _).2.1 _ rfl) fun _ => b ((readers j _).2.2 _ rfl) fun _ => b ((readers j _).2.2 _ rfl) fun _ =>
      b ((readers j _).2.1 _ rfl) fun _ => b ((readers j _).2.1 _ rfl) fun _ => b ?_ fun _ => Or.inl ⟨_, rfl⟩
    unfold isValid
    split_ifs <;> simp
  have : (∃ p, importJson (some doc) = .ok p) ∨ ∃ m, importJson (some doc) = .status m := by
    unfold importJson
    cases doc <;> exact key _
  unfold pyFromFile importFile
  rcases this with ⟨p, h⟩ | ⟨m, h⟩
  · exact Or.inl ⟨p, h, by simp only [h]⟩
  · exact Or.inr ⟨m, h, by simp only [h]⟩

/-! ## Parameters -/

/-- the four integers fit into a C++ `int` -/
def Fits (p : Params) : Prop := ∀ i ∈ [p.number_of_field_periods, p.number_of_r_grid_points, p.number_of_z_grid_points, p.number_of_phi_grid_points], -2 ^ 31 ≤ i ∧ i < 2 ^ 31

theorem castInt_ok (i v : Int) : castInt i = .ok v ↔ (-2 ^ 31 ≤ i ∧ i < 2 ^ 31) ∧ i = v := by
  unfold castInt
  split_ifs with h
  · exact ⟨fun e => ⟨h, by injection e⟩, fun e => by rw [e.2]⟩
  · exact ⟨fun e => (by cases e), fun e => absurd e.1 h⟩

/-- **C111 (parameters).** Conversion to C++ succeeds exactly if the integers fit, and loses nothing; conversion from C++ always succeeds and loses nothing. -/
theorem C111_parameters (p q : Params) : (toCpp p = .ok q ↔ Fits p ∧ p = q) ∧ (fromCpp p = .ok q ↔ p = q) := by
  constructor
  · have e : toCpp p = (castInt p.number_of_field_periods >>= fun c => castInt p.number_of_r_grid_points >>= fun f => castInt p.number_of_z_grid_points >>= fun i =>
        castInt p.number_of_phi_grid_points >>= fun j => Outcome.ok (⟨p.normalize_by_currents, p.assume_stellarator_symmetry, c, p.r_grid_minimum, p.r_grid_maximum, f,
          p.z_grid_minimum, p.z_grid_maximum, i, j⟩ : Params)) := rfl
    rw [e]
    simp only [bind_eq_ok, castInt_ok]
    constructor
    · rintro ⟨_, ⟨a, rfl⟩, _, ⟨b, rfl⟩, _, ⟨c, rfl⟩, _, ⟨d, rfl⟩, h⟩
      injection h with h
      refine ⟨?_, h⟩
      intro i hi
      simp only [List.mem_cons, List.not_mem_nil, or_false] at hi
      rcases hi with rfl | rfl | rfl | rfl <;> assumption
    · rintro ⟨h, rfl⟩
      exact ⟨_, ⟨h _ (by simp), rfl⟩, _, ⟨h _ (by simp), rfl⟩, _, ⟨h _ (by simp), rfl⟩, _, ⟨h _ (by simp), rfl⟩, rfl⟩
  · have e : fromCpp p = .ok p := rfl
    rw [e]
    exact ⟨fun h => by injection h, fun h => by rw [h]⟩

/-! ## Tables -/

/-- what Python shows -/
def shown (h : Heap) (t : PyTable) : CppTable := ⟨t.parameters, fun k => (t.field k).read h⟩

/-- the arrays are views of the components of `o` or arrays of their own, and the parameters are those of `o` -/
def Mirror (o : ℕ) (s : Heap × PyTable) : Prop := (s.1.get o).parameters = s.2.parameters ∧ ∀ k, s.2.field k = .view o k ∨ ∃ d, s.2.field k = .own d

theorem mirror_step {o : ℕ} {s : Heap × PyTable} (h : Mirror o s) (op : Op) : Mirror o (step s op) := by
  obtain ⟨hp, hf⟩ := h
  cases op with
  | replace k d =>
    refine ⟨hp, fun k' => ?_⟩
    unfold step assign
    simp only []
    split_ifs
    · exact Or.inr ⟨d, rfl⟩
    · exact hf k'
  | write k i j v =>
    unfold step writeElement
    simp only []
    rcases hf k with e | ⟨d, e⟩
    · rw [e]
      refine ⟨?_, hf⟩
      simp only [if_true]
      exact hp
    · rw [e]
      refine ⟨hp, fun k' => ?_⟩
      simp only []
      split_ifs
      · exact Or.inr ⟨_, rfl⟩
      · exact hf k'

theorem base_view (a : Arr) (o : ℕ) : base a = some o ↔ ∃ k, a = .view o k := by
  cases a <;> simp [base]

/-- the object is handed over as it is exactly if all three arrays are views of it; which component they show is not looked at -/
theorem underlying_some (t : PyTable) (o : ℕ) : underlying t = some o ↔ ∀ k, ∃ k', t.field k = .view o k' := by
  unfold underlying
  constructor
  · intro h
    split at h
    · simp at h
    · rename_i o' h'
      split_ifs at h with q
      injection h with h
      subst h
      intro k
      rw [← base_view]
      cases k
      · exact h'
      · exact q.1.symm
      · exact q.2.symm
  · intro h
    have h1 := (base_view _ _).2 (h .b_r)
    have h2 := (base_view _ _).2 (h .b_p)
    have h3 := (base_view _ _).2 (h .b_z)
    rw [h1, h2, h3]
    simp

/-- **C111 (tables).** Start with a C++ table; change elements and put arrays of one's own in place, in any order and as often as one likes. The table which is then
handed to C++ contains exactly what Python shows, and no other C++ object is changed by handing it over. -/
theorem C111_tables {h : Heap} {o : ℕ} (ho : o < h.next) (hfit : Fits (h.get o).parameters) {t : PyTable} (ht : tableFromCpp h o = .ok t) (ops : List Op) :
    let s := ops.foldl step (h, t)
    ∃ h' o', tableToCpp s.1 s.2 = .ok (h', o') ∧ h'.get o' = shown s.1 s.2 ∧ ∀ q, q < s.1.next → h'.get q = s.1.get q := by
  intro s
  have par : fromCpp (h.get o).parameters = .ok (h.get o).parameters := ((C111_parameters _ _).2).2 rfl
  have ht' : t = ⟨(h.get o).parameters, fun k => .view o k⟩ := by
    unfold tableFromCpp at ht
    rw [par] at ht
    simp only [Outcome.bind_ok] at ht
    injection ht with ht
    exact ht.symm
  have m : Mirror o s ∧ s.2.parameters = (h.get o).parameters := by
    have : ∀ (ops : List Op) (x : Heap × PyTable), Mirror o x → x.2.parameters = (h.get o).parameters →
        Mirror o (ops.foldl step x) ∧ (ops.foldl step x).2.parameters = (h.get o).parameters := by
      intro ops
      induction ops with
      | nil => exact fun x a b => ⟨a, b⟩
      | cons op ops ih =>
        intro x a b
        refine ih _ (mirror_step a op) ?_
        rw [← b]
        cases op with
        | replace => rfl
        | write k i j v =>
          unfold step writeElement
          simp only []
          cases x.2.field k <;> rfl
    refine this ops (h, t) ⟨by rw [ht'], fun k => Or.inl (by rw [ht'])⟩ (by rw [ht'])
  obtain ⟨⟨m1, m2⟩, m3⟩ := m
  unfold tableToCpp
  rcases hu : underlying s.2 with _ | q
  · have : toCpp s.2.parameters = .ok s.2.parameters := ((C111_parameters _ _).1).2 ⟨by rw [m3]; exact hfit, rfl⟩
    simp only []
    rw [this]
    refine ⟨_, _, rfl, ?_, ?_⟩
    · simp only [if_true]
      rfl
    · intro q hq
      simp only []
      rw [if_neg (by omega)]
  · refine ⟨s.1, q, rfl, ?_, fun _ _ => rfl⟩
    have v := (underlying_some _ _).1 hu
    have e : q = o := by
      obtain ⟨k', hk⟩ := v .b_r
      rcases m2 .b_r with e | ⟨d, e⟩ <;> rw [e] at hk
      · injection hk with a _
        exact a.symm
      · cases hk
    subst e
    unfold shown
    rw [← m1]
    have : (s.1.get q).field = fun k => (s.2.field k).read s.1 := by
      funext k
      rcases m2 k with e | ⟨d, e⟩
      · rw [e]; rfl
      · obtain ⟨k', hk⟩ := v k
        rw [e] at hk
        cases hk
    rw [← this]

/-- **C111 (identity).** Unchanged tables are handed over without a copy. -/
theorem C111_identity (h : Heap) (o : ℕ) : ∃ t, tableFromCpp h o = .ok t ∧ tableToCpp h t = .ok (h, o) := by
  have par : fromCpp (h.get o).parameters = .ok (h.get o).parameters := ((C111_parameters _ _).2).2 rfl
  refine ⟨⟨(h.get o).parameters, fun k => .view o k⟩, ?_, ?_⟩
  · unfold tableFromCpp
    rw [par]
    rfl
  · unfold tableToCpp
    rw [((underlying_some _ o).2 fun k => ⟨k, rfl⟩)]

/-! ## Where it fails -/

/-- **Parameters and exchanged arrays are ignored.** As long as all arrays are views of a C++ table, that table is handed over whatever `parameters` says and
whichever component each array shows. -/
theorem C111_ignored_fails (h : Heap) (o : ℕ) (p : Params) (f : Comp → Comp) : tableToCpp h ⟨p, fun k => .view o (f k)⟩ = .ok (h, o) := by
  unfold tableToCpp
  rw [((underlying_some _ o).2 fun k => ⟨f k, rfl⟩)]

/-- a table in which the components differ -/
def sample : Heap := ⟨1, fun _ => ⟨⟨true, false, 5, .fin 1, .fin 2, 11, .fin 0, .fin 1, 11, 36⟩, fun k _ _ => match k with | .b_r => .fin 1 | .b_p => .fin 2 | .b_z => .fin 3⟩⟩

/-- hence C++ may get another table than Python shows: with another number of field periods, or with `b_r` and `b_z` exchanged -/
theorem C111_stale_fails :
    (∃ t, (∀ k, t.field k = .view 0 k) ∧ t.parameters.number_of_field_periods = 4 ∧ ∃ h' o', tableToCpp sample t = .ok (h', o') ∧ (h'.get o').parameters.number_of_field_periods = 5) ∧
    (∃ t, t.parameters = (sample.get 0).parameters ∧ ∃ h' o', tableToCpp sample t = .ok (h', o') ∧ (h'.get o').field .b_r 0 0 ≠ (t.field .b_r).read sample 0 0) := by
  constructor
  · refine ⟨⟨⟨true, false, 4, .fin 1, .fin 2, 11, .fin 0, .fin 1, 11, 36⟩, fun k => .view 0 k⟩, fun _ => rfl, rfl, sample, 0, C111_ignored_fails _ _ _ id, rfl⟩
  · refine ⟨⟨(sample.get 0).parameters, fun k => .view 0 (match k with | .b_r => .b_z | .b_p => .b_p | .b_z => .b_r)⟩, rfl, sample, 0, C111_ignored_fails _ _ _ _, ?_⟩
    decide

/-- **Tables share memory.** Two Python tables made from the same C++ table are changed together. -/
theorem C111_shared_fails (h : Heap) (o : ℕ) (t u : PyTable) (ht : tableFromCpp h o = .ok t) (hu : tableFromCpp h o = .ok u) (k : Comp) (i j : Int) (v : D) :
    (u.field k).read (writeElement h t k i j v).1 i j = v := by
  have e (x : PyTable) (hx : tableFromCpp h o = .ok x) : x.field = fun k => .view o k := by
    unfold tableFromCpp at hx
    rw [show fromCpp (h.get o).parameters = .ok (h.get o).parameters from ((C111_parameters _ _).2).2 rfl] at hx
    simp only [Outcome.bind_ok] at hx
    injection hx with hx
    rw [← hx]
  rw [e u hu]
  unfold writeElement
  rw [e t ht]
  simp [Arr.read]

/-- **A missing file ends the process**, Python cannot catch it. -/
theorem C111_file_fails : pyFromFile none = .abort "CHECK_OK" := rfl

/-- **Large integers wrap around**: a document with `2 ^ 32 + 11` points is accepted as one with 11. -/
theorem C111_wrap_fails : ∃ j : Obj, j "number_of_r_grid_points" = some (.int (2 ^ 32 + 11)) ∧
    ∃ p, importJson (some (.obj j)) = .ok p ∧ p.number_of_r_grid_points = 11 := by
  refine ⟨fun n => match n with
    | "normalize_by_currents" => some (.bool true)
    | "assume_stellarator_symmetry" => some (.bool false)
    | "number_of_field_periods" => some (.int 5)
    | "r_grid_minimum" => some (.float (.fin 1))
    | "r_grid_maximum" => some (.int 2)
    | "number_of_r_grid_points" => some (.int (2 ^ 32 + 11))
    | "z_grid_minimum" => some (.float (.fin (-1)))
    | "z_grid_maximum" => some (.float (.fin 1))
    | "number_of_z_grid_points" => some (.int 11)
    | "number_of_phi_grid_points" => some (.int 36)
    | _ => none, rfl, ⟨true, false, 5, .fin 1, .fin 2, 11, .fin (-1), .fin 1, 11, 36⟩, ?_, rfl⟩
  rw [C111_import]
  refine ⟨_, rfl, ⟨rfl, rfl, ⟨5, rfl, by decide⟩, Or.inl rfl, Or.inr ⟨2, rfl, rfl⟩, ⟨_, rfl, by decide⟩, Or.inl rfl, Or.inl rfl, ⟨11, rfl, by decide⟩, ⟨36, rfl, by decide⟩⟩, ?_⟩
  exact ⟨by decide, by decide, by decide, by decide, by decide, by decide⟩

/-- **NaN is a usable extent**: Python accepts it, the conversion keeps it and the check of the grid does not find it. -/
theorem C111_nan_fails : ∃ p, p.r_grid_minimum = .nan ∧ toCpp p = .ok p ∧ isValid p = .ok () :=
  ⟨⟨true, false, 5, .nan, .fin 2, 11, .fin (-1), .fin 1, 11, 36⟩, rfl, by decide, by decide⟩

/-! ## Examples -/

/-- a table whose elements are changed and of which one component is replaced: C++ gets a new object with the new contents -/
example : ∃ h' o', (let s := [Op.write .b_p 0 0 (.fin 7), .replace .b_z fun _ _ => .fin 9].foldl step (sample, ⟨(sample.get 0).parameters, fun k => .view 0 k⟩)
    tableToCpp s.1 s.2) = .ok (h', o') ∧ o' = 1 ∧ (h'.get o').field .b_p 0 0 = .fin 7 ∧ (h'.get o').field .b_z 4 2 = .fin 9 ∧ (h'.get o').field .b_r 0 0 = .fin 1 :=
  ⟨_, _, rfl, rfl, by decide, by decide, by decide⟩

example : Fits (sample.get 0).parameters ∧ 0 < sample.next := by
  refine ⟨?_, by decide⟩
  intro i hi
  change i ∈ [(5 : Int), 11, 11, 36] at hi
  simp only [List.mem_cons, List.not_mem_nil, or_false] at hi
  omega

end Verif.FieldTable
