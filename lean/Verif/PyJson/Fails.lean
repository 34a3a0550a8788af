import Verif.PyJson.Props

/-!
# C98: values that are not read back, and values to which the round trip applies
-/
namespace Verif.PyJson
open Verif

variable {R : Type}

/-- **C98 fails** for integer and boolean arrays without elements: `[]` is read as an array of doubles. -/
theorem C98_empty_int_fails (ofInt : Int → R) : ∃ j, serialize .array (.arr (⟨.int64, [0], []⟩ : NArr R)) = .ok j ∧ deserialize ofInt .array j = .ok (.arr ⟨.float64, [0], []⟩) := by
  refine ⟨.list [], ?_, ?_⟩
  · simp [serialize, traverse, serValue, tolist, chunks, Outcome.bind, jsonify, jsonifyL]
  · simp [deserialize, traverse, deserValue, reconstruct, reconstructL, npArray, shapeOf, shapesL, leaves, leavesL, promote, Outcome.bind]

/-- **C98 fails** for arrays without rows: the shape `(0, k)` is read as `(0,)`. -/
theorem C98_empty_rows_fails (ofInt : Int → R) (k : ℕ) : ∃ j, serialize .array (.arr (⟨.float64, [0, k], []⟩ : NArr R)) = .ok j ∧ deserialize ofInt .array j = .ok (.arr ⟨.float64, [0], []⟩) := by
  refine ⟨.list [], ?_, ?_⟩
  · simp [serialize, traverse, serValue, tolist, chunks, Outcome.bind, jsonify, jsonifyL]
  · simp [deserialize, traverse, deserValue, reconstruct, reconstructL, npArray, shapeOf, shapesL, leaves, leavesL, promote, Outcome.bind]

/-- **C98 fails** for arrays without dimensions: they are read as a plain number, and NaN as a string. -/
theorem C98_scalar_fails (ofInt : Int → R) : (∀ x : R, ∃ j, serialize .array (.arr ⟨.float64, [], [.flt (.fin x)]⟩) = .ok j ∧ deserialize ofInt .array j = .ok (.lit (.flt (.fin x)))) ∧
    ∃ j, serialize .array (.arr (⟨.float64, [], [.flt .nan]⟩ : NArr R)) = .ok j ∧ deserialize ofInt .array j = .ok (.lit (.str "NaN")) := by
  refine ⟨fun x => ⟨.lit (.flt (.fin x)), ?_, ?_⟩, .lit (.str "NaN"), ?_, ?_⟩ <;>
    simp [serialize, deserialize, traverse, serValue, deserValue, tolist, Outcome.bind, jsonify, sanitize]

/-- **C98 fails** for a union with a list before the array (`list[float] | np.ndarray`): the list option always makes a new object, so the array is read as a list. -/
theorem C98_union_fails (ofInt : Int → R) (x : R) : ∃ j, serialize (.union [.list .scalar, .array]) (.arr ⟨.float64, [1], [.flt (.fin x)]⟩) = .ok j ∧
    deserialize ofInt (.union [.list .scalar, .array]) j = .ok (.list [.lit (.flt (.fin x))]) := by
  refine ⟨.list [.lit (.flt (.fin x))], ?_, ?_⟩
  · simp [serialize, traverse, traverseUnion, serValue, tolist, chunks, Outcome.bind, jsonify, jsonifyL]; rfl
  · simp [deserialize, traverse, traverseUnion, mapO, Outcome.bind]

/-- **C98 fails** for a union with an array before a list (`np.ndarray | list[list[int]]`): a list of lists of different lengths is a value of the second option, and is written as it is, but reading
    raises `ValueError`, although `_deserialize_value` must "gracefully handle values that are NOT valid for the declared type" (214-216). -/
theorem C98_ragged_fails (ofInt : Int → R) :
    let v : V R := .list [.list [.lit (.int 1)], .list [.lit (.int 2), .lit (.int 3)]]
    serialize (.union [.array, .list (.list .scalar)]) v = .ok v ∧ deserialize ofInt (.union [.array, .list (.list .scalar)]) v = .throws "ValueError" := by
  refine ⟨?_, ?_⟩
  · simp [serialize, traverse, traverseUnion, serValue, mapO, Outcome.bind, jsonify, jsonifyL, sanitize]
  · simp [deserialize, traverse, traverseUnion, deserValue, reconstruct, reconstructL, reconstructLit, npArray, shapeOf, shapesL, Outcome.bind]

/-- **C98 fails** for whole numbers: a list of numbers without a decimal point, as a person or another program may write the coefficients of a profile, is read as an array of integers, which a field
    declared `jt.Float[...]` rejects. -/
theorem C98_whole_fails (ofInt : Int → R) (l : List Int) (h : ∀ n ∈ l, -2 ^ 63 ≤ n ∧ n < 2 ^ 63) (h0 : l ≠ []) :
    deserialize ofInt .array (.list (l.map fun n => .lit (.int n))) = .ok (.arr ⟨.int64, [l.length], l.map .int⟩) := by
  have hg : Good (⟨.int64, [l.length], l.map .int⟩ : NArr R) := by
    refine ⟨by simp, fun x hx => ?_, by simp, by simp, fun _ => ?_, by simp⟩
    · obtain ⟨n, hn, rfl⟩ := List.mem_map.1 hx
      exact h n hn
    · simpa using List.length_pos_iff.2 h0
  obtain ⟨_, j, e1, e2, e3⟩ := array_back ofInt hg
  have hch : ∀ d : List (Lit R), chunks 1 d.length d = d.map fun x => [x] := by
    intro d
    induction d with
    | nil => rfl
    | cons x d ih => rw [List.length_cons, chunks, List.take_succ_cons, List.take_zero, List.drop_succ_cons, List.drop_zero, ih, List.map_cons]
  have hj : j = l.map fun n => .lit (.int n) := by
    rw [json_tolist _ _ hg.size] at e2
    have hlen : l.length = ((l.map fun n => (Lit.int n : Lit R)).map sanitize).length := by simp
    simp only [tolist, List.prod_nil] at e2
    rw [hlen, hch] at e2
    injection e2 with e2
    injection e2 with e2
    rw [← e2]
    simp [sanitize]
  rw [deserialize, traverse, ← hj, e3]; rfl

/-! ## a case -/

/-- a dictionary of optional matrices with NaN and infinities, and a tuple of a flag and a vector of integers -/
def caseType : Ty := .tuple [.mapping (.union [.array, .scalar]), .scalar, .union [.scalar, .annotated .array], .list (.tupleAll .array)]

/-- a value of this type -/
def caseValue : V ℚ :=
  .tuple [.dict ["a", "b"] [.arr ⟨.float64, [2, 2], [.flt (.fin 5), .flt .nan, .flt .ninf, .flt (.fin (-3))]⟩, .lit .null], .lit (.bool true), .arr ⟨.int64, [3], [.int 4, .int (-6), .int 8]⟩,
    .list [.tuple [.arr ⟨.boolean, [1, 1, 2], [.bool true, .bool false]⟩, .arr ⟨.float64, [2, 0], []⟩]]]

theorem case_typed : Typed caseType caseValue := by
  have g1 : Good (⟨.float64, [2, 2], [.flt (.fin 5), .flt .nan, .flt .ninf, .flt (.fin (-3))]⟩ : NArr ℚ) := ⟨by simp, by simp [Elem], by simp, by simp, by simp, by simp⟩
  have g2 : Good (⟨.int64, [3], [.int 4, .int (-6), .int 8]⟩ : NArr ℚ) := ⟨by simp, by simp [Elem], by simp, by simp, by simp, by simp⟩
  have g3 : Good (⟨.boolean, [1, 1, 2], [.bool true, .bool false]⟩ : NArr ℚ) := ⟨by simp, by simp [Elem], by simp, by simp, by simp, by simp⟩
  have g4 : Good (⟨.float64, [2, 0], []⟩ : NArr ℚ) := ⟨by simp, by simp, by simp, by simp, by simp, by simp⟩
  simp [caseType, caseValue, Typed, TypedAll, TypedUnion, Inert, g1, g2, g3, g4]

/-- the hypothesis of `C98_roundtrip_partial` is met by `caseValue` -/
example : ∃ j, serialize caseType caseValue = .ok j ∧ deserialize (fun n => (n : ℚ)) caseType j = .ok caseValue := C98_roundtrip_partial _ _ _ case_typed
/-- and its JSON form is standard JSON -/
example : ∃ j, serialize caseType caseValue = .ok j ∧ Json j := by
  obtain ⟨j, h, _⟩ := C98_roundtrip_partial (fun n => (n : ℚ)) _ _ case_typed
  exact ⟨j, h, C98_standard _ _ _ h⟩
/-- coefficients of a profile written as whole numbers -/
example := C98_whole_fails (R := ℚ) (fun n => n) [1, 0, -1] (by simp) (by simp)

/-- the hypotheses of `C98_numbers` are met by the list `[1, 2.5, null, "inf"]` -/
example := C98_numbers (R := ℚ) (fun n => n) [.int 1, .flt (.fin (5 / 2)), .null, .str "inf"] [.fin 1, .fin (5 / 2), .nan, .pinf]
  (.cons (.int 1 (by norm_num)) (.cons (.flt _) (.cons .null (.cons (.pinf _ (.inr rfl)) .nil)))) ⟨.null, by simp, by simp⟩

end Verif.PyJson
