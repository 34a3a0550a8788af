import Verif.PyJson.Model
import Mathlib.Tactic

/-!
# C98: classes with numpy arrays written as JSON and read again
-/
namespace Verif.PyJson
open Verif

variable {R : Type}

/-! ## specification -/

/-- the element belongs to the number type -/
def Elem (t : DType) (x : Lit R) : Prop :=
  match t, x with
  | .float64, .flt _ => True
  | .int64, .int n => -2 ^ 63 ≤ n ∧ n < 2 ^ 63
  | .boolean, .bool _ => True
  | _, _ => False

/-- an array whose elements belong to its number type and are as many as its shape says, with at least one dimension, of which only the last may be empty, and then only for doubles -/
structure Good (a : NArr R) : Prop where
  size : a.data.length = a.shape.prod
  elem : ∀ x ∈ a.data, Elem a.dtype x
  dims : a.shape ≠ []
  pos : ∀ n ∈ a.shape.dropLast, 0 < n
  empty : a.dtype ≠ .float64 → 0 < a.shape.prod
  allowed : a.dtype ≠ .other

/-- a type that this module leaves alone -/
def Inert (t : Ty) : Prop := t = .any ∨ t = .scalar ∨ t = .literal

mutual
/-- the value belongs to the type; a value without parts belongs to every type but is not a double that JSON cannot express.  In a union, the types besides that of the value are not containers and not
    arrays. -/
def Typed : Ty → V R → Prop
  | .annotated t, v => Typed t v
  | .union ts, v => TypedUnion ts v
  | t, .lit x => x ≠ .flt .nan ∧ x ≠ .flt .pinf ∧ x ≠ .flt .ninf
  | .array, .arr a => Good a
  | .mapping t, .dict _ vs => ∀ v ∈ vs, Typed t v
  | .tuple ts, .tuple vs => TypedAll ts vs
  | .tupleAll t, .tuple vs => ∀ v ∈ vs, Typed t v
  | .list t, .list vs => ∀ v ∈ vs, Typed t v
  | _, _ => False
def TypedAll : List Ty → List (V R) → Prop
  | [], [] => True
  | t :: ts, v :: vs => Typed t v ∧ TypedAll ts vs
  | _, _ => False
def TypedUnion : List Ty → V R → Prop
  | [], _ => False
  | t :: ts, v => (∃ x, v = .lit x ∧ x ≠ .flt .nan ∧ x ≠ .flt .pinf ∧ x ≠ .flt .ninf) ∨ (Typed t v ∧ ∀ u ∈ ts, Inert u) ∨ (Inert t ∧ TypedUnion ts v)
end

/-! ## arrays -/

theorem chunks_len {α : Type} (p : ℕ) : ∀ (n : ℕ) (d : List α), (chunks p n d).length = n
  | 0, _ => rfl
  | n + 1, d => by rw [chunks, List.length_cons, chunks_len p n]

theorem chunks_mem {α : Type} (p : ℕ) : ∀ (n : ℕ) (d : List α), d.length = n * p → ∀ c ∈ chunks p n d, c.length = p ∧ ∀ x ∈ c, x ∈ d
  | 0, _, _, c, hc => by simp [chunks] at hc
  | n + 1, d, h, c, hc => by
    rw [chunks, List.mem_cons] at hc
    rw [Nat.succ_mul] at h
    rcases hc with rfl | hc
    · exact ⟨by rw [List.length_take]; omega, fun x hx => List.mem_of_mem_take hx⟩
    · obtain ⟨h1, h2⟩ := chunks_mem p n (d.drop p) (by rw [List.length_drop]; omega) c hc
      exact ⟨h1, fun x hx => List.mem_of_mem_drop (h2 x hx)⟩

theorem chunks_map {α β : Type} (f : α → β) (p : ℕ) : ∀ (n : ℕ) (d : List α), chunks p n (d.map f) = (chunks p n d).map (List.map f)
  | 0, _ => rfl
  | n + 1, d => by rw [chunks, chunks, List.map_cons, List.map_take, ← chunks_map f p n, List.map_drop]

theorem leaves_chunks (s : List ℕ) (ih : ∀ d : List (Lit R), d.length = s.prod → leaves (tolist s d) = d.map .lit) : ∀ (n : ℕ) (d : List (Lit R)), d.length = n * s.prod →
    leavesL ((chunks s.prod n d).map (tolist s)) = d.map .lit
  | 0, d, h => by
    have : d = [] := by rw [Nat.zero_mul] at h; exact List.length_eq_zero_iff.1 h
    subst this; simp [chunks, leavesL]
  | n + 1, d, h => by
    rw [Nat.succ_mul] at h
    rw [chunks, List.map_cons, leavesL, ih _ (by rw [List.length_take]; omega), leaves_chunks s ih n _ (by rw [List.length_drop]; omega), ← List.map_append, List.take_append_drop]

theorem leaves_tolist : ∀ (s : List ℕ) (d : List (Lit R)), d.length = s.prod → leaves (tolist s d) = d.map .lit
  | [], d, h => by
    obtain ⟨x, rfl⟩ := List.length_eq_one_iff.1 (by simpa using h)
    simp [tolist, leaves]
  | n :: s, d, h => by
    rw [tolist, leaves]
    exact leaves_chunks s (leaves_tolist s) n d (by simpa using h)

theorem shapes_const {s : List ℕ} : ∀ (l : List (V R)), (∀ v ∈ l, shapeOf v = some s) → shapesL l = some (List.replicate l.length s)
  | [], _ => rfl
  | v :: vs, h => by
    rw [shapesL, h v (List.mem_cons_self ..), shapes_const vs fun x hx => h x (List.mem_cons_of_mem _ hx)]
    rfl

theorem shape_tolist : ∀ (s : List ℕ) (d : List (Lit R)), d.length = s.prod → (∀ n ∈ s.dropLast, 0 < n) → shapeOf (tolist s d) = some s
  | [], d, _, _ => by simp [tolist, shapeOf]
  | n :: s, d, h, hp => by
    have hl : d.length = n * s.prod := by simpa using h
    rw [tolist, shapeOf, shapes_const (s := s)]
    · rw [List.length_map, chunks_len]
      cases n with
      | zero =>
        cases s with
        | nil => rfl
        | cons m s => exact absurd (hp 0 (by simp)) (by omega)
      | succ n => simp [List.replicate_succ]
    · intro v hv
      obtain ⟨c, hc, rfl⟩ := List.mem_map.1 hv
      refine shape_tolist s c (chunks_mem _ n d hl c hc).1 fun m hm => hp m ?_
      cases s with
      | nil => simp at hm
      | cons a s => rw [List.dropLast_cons_of_ne_nil (by simp)]; exact List.mem_cons_of_mem _ hm

theorem jsonL_map {f : V R → V R} : ∀ (l : List (V R)), (∀ v ∈ l, jsonify v = .ok (f v)) → jsonifyL l = .ok (l.map f)
  | [], _ => rfl
  | v :: vs, h => by
    rw [jsonifyL, h v (List.mem_cons_self ..), jsonL_map vs fun x hx => h x (List.mem_cons_of_mem _ hx)]
    rfl

theorem json_tolist : ∀ (s : List ℕ) (d : List (Lit R)), d.length = s.prod → jsonify (tolist s d) = .ok (tolist s (d.map sanitize))
  | [], d, h => by
    obtain ⟨x, rfl⟩ := List.length_eq_one_iff.1 (by simpa using h)
    simp [tolist, jsonify]
  | n :: s, d, h => by
    have hl : d.length = n * s.prod := by simpa using h
    have key : ∀ l : List (List (Lit R)), (∀ c ∈ l, c.length = s.prod) → jsonifyL (l.map (tolist s)) = .ok ((l.map (List.map sanitize)).map (tolist s)) := by
      intro l
      induction l with
      | nil => intro _; rfl
      | cons c l ih =>
        intro hc
        rw [List.map_cons, jsonifyL, json_tolist s c (hc c (List.mem_cons_self ..)), ih fun x hx => hc x (List.mem_cons_of_mem _ hx)]
        rfl
    rw [tolist, jsonify, key _ fun c hc => (chunks_mem _ n d hl c hc).1, ← chunks_map, tolist]
    rfl

theorem reconstructL_map (l : List (V R)) : reconstructL l = l.map reconstruct := by
  induction l with
  | nil => rfl
  | cons v l ih => rw [reconstructL, ih]; rfl

theorem reconstruct_tolist : ∀ (s : List ℕ) (d : List (Lit R)), d.length = s.prod → reconstruct (tolist s d) = tolist s (d.map reconstructLit)
  | [], d, h => by
    obtain ⟨x, rfl⟩ := List.length_eq_one_iff.1 (by simpa using h)
    simp [tolist, reconstruct]
  | n :: s, d, h => by
    have hl : d.length = n * s.prod := by simpa using h
    rw [tolist, reconstruct, reconstructL_map, tolist, chunks_map, List.map_map, List.map_map]
    congr 1
    exact List.map_congr_left fun c hc => reconstruct_tolist s c (chunks_mem _ n d hl c hc).1

theorem float_back {t : DType} {x : Lit R} (h : Elem t x) : reconstructLit (sanitize x) = x := by
  cases x with
  | null => cases t <;> exact h.elim
  | bool b => rfl
  | int n => rfl
  | str s => cases t <;> exact h.elim
  | flt x =>
    cases x with
    | fin x => rfl
    | nan => simp [sanitize, reconstructLit]
    | pinf => simp [sanitize, reconstructLit]
    | ninf => simp [sanitize, reconstructLit]

theorem elem_type {t : DType} {x : Lit R} (h : Elem t x) : elemType (.lit x) = t := by
  cases x <;> cases t <;> simp only [Elem] at h
  · rfl
  · simp only [elemType]; rw [if_pos h]
  · rfl

theorem promote_const {t : DType} {d : List (Lit R)} (h : ∀ x ∈ d, Elem t x) (h0 : t ≠ .float64 → d ≠ []) : promote (d.map .lit) = t := by
  have hp : promote2 t t = t := by cases t <;> rfl
  cases d with
  | nil => simp only [List.map_nil, promote]; by_contra hc; exact h0 (Ne.symm hc) rfl
  | cons x d =>
    rw [List.map_cons, promote, elem_type (h x (List.mem_cons_self ..))]
    have : ∀ l : List (Lit R), (∀ y ∈ l, Elem t y) → (l.map V.lit).foldl (fun t v => promote2 t (elemType v)) t = t := by
      intro l
      induction l with
      | nil => intro _; rfl
      | cons y l ih =>
        intro hl
        rw [List.map_cons, List.foldl_cons, elem_type (hl y (List.mem_cons_self ..)), hp]
        exact ih fun z hz => hl z (List.mem_cons_of_mem _ hz)
    exact this d fun y hy => h y (List.mem_cons_of_mem _ hy)

theorem convert_id (ofInt : Int → R) {t : DType} {x : Lit R} (h : Elem t x) : convert ofInt t (.lit x) = x := by
  cases x <;> cases t <;> simp only [Elem] at h <;> rfl

/-- an array is read back from its JSON form -/
theorem array_back (ofInt : Int → R) {a : NArr R} (h : Good a) : ∃ l j, tolist a.shape a.data = .list l ∧ jsonify (tolist a.shape a.data) = .ok (.list j) ∧
    deserValue ofInt (.list j) = .ok (true, .arr a) := by
  obtain ⟨n, s, hs⟩ := List.exists_cons_of_ne_nil h.dims
  have hj := json_tolist a.shape a.data h.size
  have hl : (a.data.map sanitize).length = a.shape.prod := by rw [List.length_map, h.size]
  have hr := reconstruct_tolist a.shape (a.data.map sanitize) hl
  have hid : (a.data.map sanitize).map reconstructLit = a.data := by
    rw [List.map_map]
    conv_rhs => rw [← List.map_id a.data]
    exact List.map_congr_left fun x hx => float_back (h.elem x hx)
  rw [hid] at hr
  have e1 : tolist a.shape a.data = .list ((chunks s.prod n a.data).map (tolist s)) := by rw [hs, tolist]
  have e2 : tolist a.shape (a.data.map sanitize) = .list ((chunks s.prod n (a.data.map sanitize)).map (tolist s)) := by rw [hs, tolist]
  refine ⟨_, _, e1, by rw [hj, e2], ?_⟩
  rw [deserValue, ← e2, hr]
  unfold npArray
  rw [shape_tolist a.shape a.data h.size h.pos, leaves_tolist a.shape a.data h.size, promote_const h.elem (fun hf => by
    intro hd; have := h.empty hf; rw [← h.size, hd] at this; simp at this)]
  have hc : (a.data.map V.lit).map (convert ofInt a.dtype) = a.data := by
    rw [List.map_map]
    conv_rhs => rw [← List.map_id a.data]
    exact List.map_congr_left fun x hx => convert_id ofInt (h.elem x hx)
  simp only [Outcome.bind]
  rw [hc, if_neg h.allowed]

/-! ## types -/

theorem trav_lit (conv : V R → Outcome (Bool × V R)) (x : Lit R) (hc : conv (.lit x) = .ok (false, .lit x)) : ∀ t, traverse conv t (.lit x) = .ok (false, .lit x) := by
  intro t
  refine Ty.rec (motive_1 := fun t => traverse conv t (.lit x) = .ok (false, .lit x)) (motive_2 := fun ts => traverseUnion conv ts (.lit x) = .ok (false, .lit x))
    ?_ ?_ ?_ ?_ ?_ ?_ ?_ ?_ ?_ ?_ ?_ ?_ ?_ t
  · simp [traverse]
  · simpa [traverse] using hc
  · simp [traverse]
  · simp [traverse]
  · intro t ih; simpa [traverse] using ih
  · intro ts ih; simpa [traverse] using ih
  · intro t _; simp [traverse]
  · intro ts _; simp [traverse]
  · intro t _; simp [traverse]
  · intro t _; simp [traverse]
  · simp [traverse]
  · simp [traverseUnion]
  · intro t ts h1 h2; simp [traverseUnion, h1, h2, Outcome.bind]

theorem trav_inert (conv : V R → Outcome (Bool × V R)) {t : Ty} (h : Inert t) (v : V R) : traverse conv t v = .ok (false, v) := by
  rcases h with rfl | rfl | rfl <;> simp [traverse]

theorem union_inert (conv : V R → Outcome (Bool × V R)) (v : V R) : ∀ ts, (∀ t ∈ ts, Inert t) → traverseUnion conv ts v = .ok (false, v)
  | [], _ => by simp [traverseUnion]
  | t :: ts, h => by
    rw [traverseUnion, trav_inert conv (h t (List.mem_cons_self ..))]
    simp only [Outcome.bind]
    rw [if_neg (by simp), union_inert conv v ts fun u hu => h u (List.mem_cons_of_mem _ hu)]

/-- the value of the type is written and read back -/
def Back (ofInt : Int → R) (t : Ty) (v : V R) : Prop :=
  ∃ c s j c', traverse serValue t v = .ok (c, s) ∧ (c = false → s = v) ∧ jsonify s = .ok j ∧ traverse (deserValue ofInt) t j = .ok (c', v) ∧ (c' = false → j = v)

theorem plain {x : Lit R} (h : x ≠ .flt .nan ∧ x ≠ .flt .pinf ∧ x ≠ .flt .ninf) : sanitize x = x := by
  cases x with
  | flt x => cases x <;> simp_all [sanitize]
  | _ => rfl

theorem back_lit (ofInt : Int → R) (t : Ty) {x : Lit R} (h : x ≠ .flt .nan ∧ x ≠ .flt .pinf ∧ x ≠ .flt .ninf) : Back ofInt t (.lit x) :=
  ⟨false, .lit x, .lit x, false, trav_lit _ _ rfl t, fun _ => rfl, by rw [jsonify, plain h], trav_lit _ _ rfl t, fun _ => rfl⟩

theorem back_list (ofInt : Int → R) (t : Ty) : ∀ vs : List (V R), (∀ v ∈ vs, Back ofInt t v) → ∃ rs js qs, mapO (traverse serValue t) vs = .ok rs ∧ jsonifyL (rs.map (·.2)) = .ok js ∧
    mapO (traverse (deserValue ofInt) t) js = .ok qs ∧ qs.map (·.2) = vs
  | [], _ => ⟨[], [], [], rfl, rfl, rfl, rfl⟩
  | v :: vs, h => by
    obtain ⟨c, s, j, c', h1, _, h2, h3, _⟩ := h v (List.mem_cons_self ..)
    obtain ⟨rs, js, qs, g1, g2, g3, g4⟩ := back_list ofInt t vs fun x hx => h x (List.mem_cons_of_mem _ hx)
    refine ⟨(c, s) :: rs, j :: js, (c', v) :: qs, ?_, ?_, ?_, by rw [List.map_cons, g4]⟩
    · rw [mapO, h1]; simp only [Outcome.bind]; rw [g1]
    · rw [List.map_cons, jsonifyL, h2]; simp only [Outcome.bind]; rw [g2]
    · rw [mapO, h3]; simp only [Outcome.bind]; rw [g3]

mutual
theorem typed_back (ofInt : Int → R) : ∀ (t : Ty) (v : V R), Typed t v → Back ofInt t v
  | .annotated t, v, h => by
    rw [Typed] at h
    obtain ⟨c, s, j, c', h1, h2, h3, h4, h5⟩ := typed_back ofInt t v h
    exact ⟨c, s, j, c', by rwa [traverse], h2, h3, by rwa [traverse], h5⟩
  | .union ts, v, h => by
    rw [Typed] at h
    obtain ⟨c, s, j, c', h1, h2, h3, h4, h5⟩ := union_back ofInt ts v h
    exact ⟨c, s, j, c', by rwa [traverse], h2, h3, by rwa [traverse], h5⟩
  | .any, v, h => by
    cases v <;> simp only [Typed] at h
    exact back_lit ofInt _ h
  | .scalar, v, h => by
    cases v <;> simp only [Typed] at h
    exact back_lit ofInt _ h
  | .literal, v, h => by
    cases v <;> simp only [Typed] at h
    exact back_lit ofInt _ h
  | .generic, v, h => by
    cases v <;> simp only [Typed] at h
    exact back_lit ofInt _ h
  | .array, v, h => by
    cases v <;> simp only [Typed] at h
    · exact back_lit ofInt _ h
    · obtain ⟨l, j, e1, e2, e3⟩ := array_back ofInt h
      exact ⟨true, _, _, true, by rw [traverse, serValue, if_neg h.allowed], by simp, e2, by rw [traverse, e3], by simp⟩
  | .mapping t, v, h => by
    cases v <;> simp only [Typed] at h
    · exact back_lit ofInt _ h
    · rename_i k vs
      obtain ⟨rs, js, qs, g1, g2, g3, g4⟩ := back_list ofInt t vs fun x hx => typed_back ofInt t x (h x hx)
      refine ⟨true, .dict k (rs.map (·.2)), .dict k js, true, ?_, by simp, ?_, ?_, by simp⟩
      · simp only [traverse, g1, Outcome.bind]
      · rw [jsonify, g2]; rfl
      · simp only [traverse, g3, Outcome.bind, g4]
  | .tuple ts, v, h => by
    cases v <;> simp only [Typed] at h
    · exact back_lit ofInt _ h
    · rename_i vs
      obtain ⟨rs, js, g1, g2, g3⟩ := zip_back ofInt ts vs h
      refine ⟨true, .tuple rs, .list js, true, ?_, by simp, ?_, ?_, by simp⟩
      · simp only [traverse, g1, Outcome.bind]
      · rw [jsonify, g2]; rfl
      · simp only [traverse, g3, Outcome.bind]
  | .tupleAll t, v, h => by
    cases v <;> simp only [Typed] at h
    · exact back_lit ofInt _ h
    · rename_i vs
      obtain ⟨rs, js, qs, g1, g2, g3, g4⟩ := back_list ofInt t vs fun x hx => typed_back ofInt t x (h x hx)
      refine ⟨true, .tuple (rs.map (·.2)), .list js, true, ?_, by simp, ?_, ?_, by simp⟩
      · simp only [traverse, g1, Outcome.bind]
      · rw [jsonify, g2]; rfl
      · simp only [traverse, g3, Outcome.bind, g4]
  | .list t, v, h => by
    cases v <;> simp only [Typed] at h
    · exact back_lit ofInt _ h
    · rename_i vs
      obtain ⟨rs, js, qs, g1, g2, g3, g4⟩ := back_list ofInt t vs fun x hx => typed_back ofInt t x (h x hx)
      refine ⟨true, .list (rs.map (·.2)), .list js, true, ?_, by simp, ?_, ?_, by simp⟩
      · simp only [traverse, g1, Outcome.bind]
      · rw [jsonify, g2]; rfl
      · simp only [traverse, g3, Outcome.bind, g4]
theorem zip_back (ofInt : Int → R) : ∀ (ts : List Ty) (vs : List (V R)), TypedAll ts vs → ∃ rs js, traverseZip serValue ts vs = .ok rs ∧ jsonifyL rs = .ok js ∧
    traverseZip (deserValue ofInt) ts js = .ok vs
  | [], [], _ => ⟨[], [], by rw [traverseZip], rfl, by rw [traverseZip]⟩
  | t :: ts, v :: vs, h => by
    rw [TypedAll] at h
    obtain ⟨c, s, j, c', h1, _, h2, h3, _⟩ := typed_back ofInt t v h.1
    obtain ⟨rs, js, g1, g2, g3⟩ := zip_back ofInt ts vs h.2
    refine ⟨s :: rs, j :: js, ?_, ?_, ?_⟩
    · rw [traverseZip, h1]; simp only [Outcome.bind]; rw [g1]
    · rw [jsonifyL, h2]; simp only [Outcome.bind]; rw [g2]
    · rw [traverseZip, h3]; simp only [Outcome.bind]; rw [g3]
  | [], _ :: _, h => by simp [TypedAll] at h
  | _ :: _, [], h => by simp [TypedAll] at h
theorem union_back (ofInt : Int → R) : ∀ (ts : List Ty) (v : V R), TypedUnion ts v →
    ∃ c s j c', traverseUnion serValue ts v = .ok (c, s) ∧ (c = false → s = v) ∧ jsonify s = .ok j ∧ traverseUnion (deserValue ofInt) ts j = .ok (c', v) ∧ (c' = false → j = v)
  | [], v, h => by simp [TypedUnion] at h
  | t :: ts, v, h => by
    rw [TypedUnion] at h
    rcases h with ⟨x, rfl, hx⟩ | ⟨ht, hin⟩ | ⟨hin, ht⟩
    · obtain ⟨c, s, j, c', h1, h2, h3, h4, h5⟩ := back_lit ofInt (.union (t :: ts)) hx
      rw [traverse] at h1 h4
      exact ⟨c, s, j, c', h1, h2, h3, h4, h5⟩
    · obtain ⟨c, s, j, c', h1, h2, h3, h4, h5⟩ := typed_back ofInt t v ht
      refine ⟨c, s, j, c', ?_, h2, h3, ?_, h5⟩
      · rw [traverseUnion, h1]
        simp only [Outcome.bind]
        cases c with
        | true => rfl
        | false => rw [if_neg (by simp), union_inert _ _ _ hin, h2 rfl]
      · rw [traverseUnion, h4]
        simp only [Outcome.bind]
        cases c' with
        | true => rfl
        | false => rw [if_neg (by simp), union_inert _ _ _ hin, h5 rfl]
    · obtain ⟨c, s, j, c', h1, h2, h3, h4, h5⟩ := union_back ofInt ts v ht
      refine ⟨c, s, j, c', ?_, h2, h3, ?_, h5⟩
      · rw [traverseUnion, trav_inert _ hin]
        simp only [Outcome.bind]
        rw [if_neg (by simp), h1]
      · rw [traverseUnion, trav_inert _ hin]
        simp only [Outcome.bind]
        rw [if_neg (by simp), h4]
end

/-- **C98** (JSON round trip): a value of its declared type (arrays of any rank, lists, tuples, dictionaries, optional and other unions with at most one container or array, nested to any depth) is
    written as JSON, and reading this JSON gives exactly the same value: number types, shapes and elements of all arrays, with NaN and infinities.  The full claim is about all values: see the theorems
    `C98_*_fails`. -/
theorem C98_roundtrip_partial (ofInt : Int → R) (t : Ty) (v : V R) (h : Typed t v) : ∃ j, serialize t v = .ok j ∧ deserialize ofInt t j = .ok v := by
  obtain ⟨c, s, j, c', h1, _, h2, h3, _⟩ := typed_back ofInt t v h
  refine ⟨j, ?_, ?_⟩
  · rw [serialize, h1]; exact h2
  · rw [deserialize, h3]; rfl

/-- the JSON form has no arrays, no tuples and no NaN or infinities -/
inductive Json : V R → Prop
  | lit {x : Lit R} (h : x ≠ .flt .nan ∧ x ≠ .flt .pinf ∧ x ≠ .flt .ninf) : Json (.lit x)
  | list {l : List (V R)} (h : ∀ v ∈ l, Json v) : Json (.list l)
  | dict {k : List String} {l : List (V R)} (h : ∀ v ∈ l, Json v) : Json (.dict k l)

mutual
theorem json_json : ∀ (v j : V R), jsonify v = .ok j → Json j
  | .lit x, j, h => by
    rw [jsonify] at h
    injection h with h; subst h
    refine .lit ?_
    cases x with
    | flt x => cases x <;> simp [sanitize]
    | _ => simp [sanitize]
  | .arr _, j, h => by simp [jsonify] at h
  | .list l, j, h => by
    rw [jsonify] at h
    cases e : jsonifyL l with
    | ok l' => rw [e] at h; simp only [Outcome.bind] at h; injection h with h; subst h; exact .list (json_jsonL l l' e)
    | _ => rw [e] at h; simp [Outcome.bind] at h
  | .tuple l, j, h => by
    rw [jsonify] at h
    cases e : jsonifyL l with
    | ok l' => rw [e] at h; simp only [Outcome.bind] at h; injection h with h; subst h; exact .list (json_jsonL l l' e)
    | _ => rw [e] at h; simp [Outcome.bind] at h
  | .dict k l, j, h => by
    rw [jsonify] at h
    cases e : jsonifyL l with
    | ok l' => rw [e] at h; simp only [Outcome.bind] at h; injection h with h; subst h; exact .dict (json_jsonL l l' e)
    | _ => rw [e] at h; simp [Outcome.bind] at h
theorem json_jsonL : ∀ (l j : List (V R)), jsonifyL l = .ok j → ∀ v ∈ j, Json v
  | [], j, h => by rw [jsonifyL] at h; injection h with h; subst h; simp
  | v :: vs, j, h => by
    rw [jsonifyL] at h
    cases e : jsonify v with
    | ok r =>
      rw [e] at h; simp only [Outcome.bind] at h
      cases e' : jsonifyL vs with
      | ok rs =>
        rw [e'] at h; simp only at h; injection h with h; subst h
        intro x hx
        rcases List.mem_cons.1 hx with rfl | hx
        · exact json_json v x e
        · exact json_jsonL vs rs e' x hx
      | _ => rw [e'] at h; simp at h
    | _ => rw [e] at h; simp [Outcome.bind] at h
end

/-- **C98** (standard JSON): whatever is written is standard JSON, without the tokens `NaN` and `Infinity` that other readers reject. -/
theorem C98_standard (t : Ty) (v j : V R) (h : serialize t v = .ok j) : Json j := by
  unfold serialize at h
  cases e : traverse serValue t v with
  | ok r => rw [e] at h; exact json_json _ _ h
  | _ => rw [e] at h; simp [Outcome.bind] at h

/-! ## numbers written by hand -/

/-- the double that an entry of a JSON list stands for: whole numbers of 64 bits, doubles, and the spellings of NaN and the infinities -/
inductive Means (ofInt : Int → R) : Lit R → Dbl R → Prop
  | int (n : Int) (h : -2 ^ 63 ≤ n ∧ n < 2 ^ 63) : Means ofInt (.int n) (.fin (ofInt n))
  | flt (x : R) : Means ofInt (.flt (.fin x)) (.fin x)
  | null : Means ofInt .null .nan
  | nan (s : String) (h : s = "NaN" ∨ s = "nan") : Means ofInt (.str s) .nan
  | pinf (s : String) (h : s = "Infinity" ∨ s = "inf") : Means ofInt (.str s) .pinf
  | ninf (s : String) (h : s = "-Infinity" ∨ s = "-inf") : Means ofInt (.str s) .ninf

theorem shape_flat (l : List (Lit R)) (h : l ≠ []) : shapeOf (.list (l.map V.lit)) = some [l.length] := by
  have : ∀ l : List (Lit R), shapesL (l.map V.lit) = some (l.map fun _ => []) := by
    intro l
    induction l with
    | nil => rfl
    | cons x l ih => rw [List.map_cons, shapesL, ih]; rfl
  rw [shapeOf, this]
  cases l with
  | nil => exact (h rfl).elim
  | cons x l => simp

theorem leaves_flat (l : List (Lit R)) : leaves (.list (l.map V.lit)) = l.map V.lit := by
  rw [leaves]
  induction l with
  | nil => rfl
  | cons x l ih => rw [List.map_cons, leavesL, ih]; rfl

/-- the number type of whole numbers and doubles -/
theorem promote_mixed (l : List (Lit R)) (h : ∀ x ∈ l, elemType (.lit x) = .int64 ∨ elemType (.lit x) = .float64) (hf : ∃ x ∈ l, elemType (.lit x) = .float64) : promote (l.map V.lit) = .float64 := by
  have go : ∀ (l : List (Lit R)) (t : DType), (t = .int64 ∨ t = .float64) → (∀ x ∈ l, elemType (.lit x) = .int64 ∨ elemType (.lit x) = .float64) →
      (t = .float64 ∨ ∃ x ∈ l, elemType (.lit x) = .float64) → (l.map V.lit).foldl (fun t v => promote2 t (elemType v)) t = .float64 := by
    intro l
    induction l with
    | nil => rintro t _ _ (h | ⟨x, hx, _⟩); exacts [h, by simp at hx]
    | cons x l ih =>
      intro t ht hl hf
      rw [List.map_cons, List.foldl_cons]
      have hx := hl x (List.mem_cons_self ..)
      refine ih _ ?_ (fun y hy => hl y (List.mem_cons_of_mem _ hy)) ?_
      · rcases ht with rfl | rfl <;> rcases hx with e | e <;> rw [e] <;> simp [promote2]
      · rcases hf with rfl | ⟨y, hy, e⟩
        · left; rcases hx with e | e <;> rw [e] <;> rfl
        · rcases List.mem_cons.1 hy with rfl | hy
          · left; rw [e]; rcases ht with rfl | rfl <;> rfl
          · exact .inr ⟨y, hy, e⟩
  cases l with
  | nil => obtain ⟨x, hx, _⟩ := hf; simp at hx
  | cons x l =>
    rw [List.map_cons, promote]
    refine go l _ (h x (List.mem_cons_self ..)) (fun y hy => h y (List.mem_cons_of_mem _ hy)) ?_
    obtain ⟨y, hy, e⟩ := hf
    rcases List.mem_cons.1 hy with rfl | hy
    exacts [.inl e, .inr ⟨y, hy, e⟩]

/-- **C98** (numbers written by hand): a list of numbers of which at least one is not a whole number is read as the array of doubles that the entries stand for; whole numbers, `null` and all spellings
    of NaN and the infinities are allowed in every place. -/
theorem C98_numbers (ofInt : Int → R) (l : List (Lit R)) (d : List (Dbl R)) (h : List.Forall₂ (Means ofInt) l d) (hf : ∃ x ∈ l, ∀ n, x ≠ .int n) :
    deserialize ofInt .array (.list (l.map V.lit)) = .ok (.arr ⟨.float64, [d.length], d.map Lit.flt⟩) := by
  have hne : l ≠ [] := by rintro rfl; obtain ⟨x, hx, _⟩ := hf; simp at hx
  have hr : reconstruct (.list (l.map V.lit)) = (.list ((l.map reconstructLit).map V.lit) : V R) := by
    rw [reconstruct, reconstructL_map, List.map_map, List.map_map]; rfl
  have one : ∀ x y, Means ofInt x y → (elemType (.lit (reconstructLit x)) = .int64 ∨ elemType (.lit (reconstructLit x)) = .float64) ∧
      ((∀ n, x ≠ .int n) → elemType (.lit (reconstructLit x)) = .float64) ∧ convert ofInt .float64 (.lit (reconstructLit x)) = .flt y := by
    intro x y hm
    cases hm with
    | int n h => refine ⟨.inl (by simp only [reconstructLit, elemType]; rw [if_pos h]), fun hn => (hn n rfl).elim, rfl⟩
    | flt x => exact ⟨.inr rfl, fun _ => rfl, rfl⟩
    | null => exact ⟨.inr rfl, fun _ => rfl, rfl⟩
    | nan s h => rcases h with rfl | rfl <;> simp [reconstructLit, elemType, convert]
    | pinf s h => rcases h with rfl | rfl <;> simp [reconstructLit, elemType, convert]
    | ninf s h => rcases h with rfl | rfl <;> simp [reconstructLit, elemType, convert]
  have all : ∀ x ∈ l, ∃ y, Means ofInt x y := by
    clear hf hne hr
    induction h with
    | nil => intro x hx; simp at hx
    | cons hxy _ ih => intro x hx; rcases List.mem_cons.1 hx with rfl | hx; exacts [⟨_, hxy⟩, ih x hx]
  have hp : promote ((l.map reconstructLit).map V.lit) = .float64 := by
    refine promote_mixed _ (fun x hx => ?_) ?_
    · obtain ⟨z, hz, rfl⟩ := List.mem_map.1 hx
      obtain ⟨y, hy⟩ := all z hz
      exact (one z y hy).1
    · obtain ⟨z, hz, hn⟩ := hf
      obtain ⟨y, hy⟩ := all z hz
      exact ⟨_, List.mem_map.2 ⟨z, hz, rfl⟩, (one z y hy).2.1 hn⟩
  have hd : ((l.map reconstructLit).map V.lit).map (convert ofInt .float64) = d.map Lit.flt := by
    clear hf hne hr hp all
    induction h with
    | nil => rfl
    | cons hxy _ ih => simp only [List.map_cons]; rw [ih, (one _ _ hxy).2.2]
  have hlen : (l.map reconstructLit).length = d.length := by rw [List.length_map, h.length_eq]
  rw [deserialize, traverse, deserValue, hr]
  unfold npArray
  rw [shape_flat _ (by simpa using hne), leaves_flat, hp, hd, hlen]
  rfl

end Verif.PyJson
