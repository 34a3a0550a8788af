import Verif.PyWout.Model

/-!
# Lemmas about the handover of results between C++ and Python
-/
namespace Verif.PyWout
open Verif Verif.OutputIo

def fieldNames (l : List (String × Check)) : List String := l.map Prod.fst

theorem fieldNames_cons (p : String × Check) (t : List (String × Check)) : fieldNames (p :: t) = p.1 :: fieldNames t := rfl

theorem readPlain_eq (c : Obj) : ∀ (l : List (String × Check)) (a : Fields),
    (∀ q ∈ l, q.1 ∉ special → (members.lookup q.1).isSome) →
    readPlain c l a = .ok (fun y => if y ∈ fieldNames l ∧ y ∉ special then some (c y) else a y)
  | [], a, _ => by simp [readPlain, fieldNames]
  | (x, k) :: t, a, h => by
    have ht := readPlain_eq c t
    by_cases hx : x ∈ special
    · rw [readPlain, if_pos hx, ht a fun q hq => h q (List.mem_cons_of_mem _ hq)]
      congr 1
      funext y
      by_cases hy : y = x
      · subst hy; simp [hx]
      · simp [fieldNames_cons, hy]
    · rw [readPlain, if_neg hx, getattr, if_pos (h (x, k) List.mem_cons_self hx)]
      simp only [Outcome.bind_ok]
      rw [ht _ fun q hq => h q (List.mem_cons_of_mem _ hq)]
      congr 1
      funext y
      by_cases hy : y = x
      · subst hy; by_cases hm : y ∈ fieldNames t <;> simp [fieldNames_cons, hx, hm, setField]
      · simp [fieldNames_cons, hy, setField]

theorem readAsym_eq (c : Obj) : ∀ (l : List String) (a : Fields), (∀ x ∈ l, (members.lookup x).isSome) →
    readAsym c l a = .ok (fun y => if y ∈ l then some (c y) else a y)
  | [], a, _ => by simp [readAsym]
  | x :: t, a, h => by
    rw [readAsym, getattr, if_pos (h x List.mem_cons_self)]
    simp only [Outcome.bind_ok]
    rw [readAsym_eq c t _ fun y hy => h y (List.mem_cons_of_mem _ hy)]
    congr 1
    funext y
    by_cases hy : y = x
    · subst hy; by_cases hm : y ∈ t <;> simp [hm, setField]
    · simp [hy, setField]

theorem construct_eq (a E : Fields) : ∀ (l : List (String × Check)) (o : Fields),
    (∀ q ∈ l, (∃ v w, a q.1 = some v ∧ validate q.2 v = .ok w ∧ E q.1 = some w) ∨
      (a q.1 = none ∧ q.2.optional = true ∧ E q.1 = none)) →
    construct a l o = .ok (fun y => if y ∈ fieldNames l then E y else o y)
  | [], o, _ => by simp [construct, fieldNames]
  | (x, k) :: t, o, h => by
    have ht := construct_eq a E t
    rcases h (x, k) List.mem_cons_self with ⟨v, w, h1, h2, h3⟩ | ⟨h1, h2, h3⟩
    · simp only at h1 h2 h3
      simp only [construct, h1, h2, Outcome.bind_ok]
      rw [ht _ fun q hq => h q (List.mem_cons_of_mem _ hq)]
      congr 1
      funext y
      by_cases hy : y = x
      · subst hy; by_cases hm : y ∈ fieldNames t <;> simp [fieldNames_cons, hm, setField, h3]
      · simp [fieldNames_cons, hy, setField]
    · simp only at h1 h2 h3
      simp only [construct, h1, h2, if_true]
      rw [ht _ fun q hq => h q (List.mem_cons_of_mem _ hq)]
      congr 1
      funext y
      by_cases hy : y = x
      · subst hy; by_cases hm : y ∈ fieldNames t <;> simp [fieldNames_cons, hm, setField, h3]
      · simp [fieldNames_cons, hy, setField]

theorem construct_ok (a : Fields) : ∀ (l : List (String × Check)) (o o' : Fields), construct a l o = .ok o' →
    ∀ q ∈ l, ∀ v, a q.1 = some v → ∃ w, validate q.2 v = .ok w
  | [], _, _, _, q, hq, _, _ => by simp at hq
  | (x, k) :: t, o, o', h, q, hq, v, hv => by
    simp only [construct] at h
    cases ha : a x with
    | none =>
      simp only [ha] at h
      split at h
      · rcases List.mem_cons.1 hq with rfl | hq
        · simp [ha] at hv
        · exact construct_ok a t _ _ h q hq v hv
      · simp at h
    | some u =>
      simp only [ha] at h
      cases hw : validate k u with
      | ok w =>
        rw [hw] at h
        simp only [Outcome.bind_ok] at h
        rcases List.mem_cons.1 hq with rfl | hq
        · simp only [ha, Option.some.injEq] at hv
          subst hv
          exact ⟨w, hw⟩
        · exact construct_ok a t _ _ h q hq v hv
      | _ => rw [hw] at h; simp at h

theorem writePlain_eq (p : Fields) (V : String → Val) : ∀ (l : List (String × Check)) (c : Obj),
    (∀ q ∈ l, q.1 ∉ special → ∃ k v, members.lookup q.1 = some k ∧ p q.1 = some v ∧ convert k v = .ok (V q.1)) →
    writePlain p l c = .ok (fun y => if y ∈ fieldNames l ∧ y ∉ special then V y else c y)
  | [], c, _ => by simp [writePlain, fieldNames]
  | (x, k) :: t, c, h => by
    have ht := writePlain_eq p V t
    by_cases hx : x ∈ special
    · rw [writePlain, if_pos hx, ht c fun q hq => h q (List.mem_cons_of_mem _ hq)]
      congr 1
      funext y
      by_cases hy : y = x
      · subst hy; simp [hx]
      · simp [fieldNames_cons, hy]
    · obtain ⟨k', v, h1, h2, h3⟩ := h (x, k) List.mem_cons_self hx
      simp only at h1 h2 h3
      simp only [writePlain, if_neg hx, setattr, h1, h2, h3, Outcome.bind_ok]
      rw [ht _ fun q hq => h q (List.mem_cons_of_mem _ hq)]
      congr 1
      funext y
      by_cases hy : y = x
      · subst hy; by_cases hm : y ∈ fieldNames t <;> simp [fieldNames_cons, hx, hm, OutputIo.put]
      · simp [fieldNames_cons, hy, OutputIo.put]

theorem writeAsym_eq (p : Fields) (V : String → Val) : ∀ (l : List String) (c : Obj),
    (∀ x ∈ l, p x = none ∨ ∃ k v, members.lookup x = some k ∧ p x = some v ∧ convert k v = .ok (V x)) →
    writeAsym p l c = .ok (fun y => if y ∈ l ∧ (p y).isSome then V y else c y)
  | [], c, _ => by simp [writeAsym]
  | x :: t, c, h => by
    have ht := writeAsym_eq p V t
    rcases h x List.mem_cons_self with h1 | ⟨k, v, h1, h2, h3⟩
    · simp only [writeAsym, h1]
      rw [ht c fun q hq => h q (List.mem_cons_of_mem _ hq)]
      congr 1
      funext y
      by_cases hy : y = x
      · subst hy; simp [h1]
      · simp [hy]
    · simp only [writeAsym, h2, setattr, h1, h3, Outcome.bind_ok]
      rw [ht _ fun q hq => h q (List.mem_cons_of_mem _ hq)]
      congr 1
      funext y
      by_cases hy : y = x
      · subst hy; by_cases hm : y ∈ t <;> simp [hm, h2, OutputIo.put]
      · simp [hy, OutputIo.put]

theorem readAll_eq (cls : String) (ms : List (String × Kind)) (c : Obj) : ∀ (l : List (String × Check)) (a : Fields),
    (∀ q ∈ l, (ms.lookup (cppName cls q.1)).isSome) →
    readAll cls ms c l a = .ok (fun y => if y ∈ fieldNames l then some (c (cppName cls y)) else a y)
  | [], a, _ => by simp [readAll, fieldNames]
  | (x, k) :: t, a, h => by
    rw [readAll, getattr, if_pos (h (x, k) List.mem_cons_self)]
    simp only [Outcome.bind_ok]
    rw [readAll_eq cls ms c t _ fun q hq => h q (List.mem_cons_of_mem _ hq)]
    congr 1
    funext y
    by_cases hy : y = x
    · subst hy; by_cases hm : y ∈ fieldNames t <;> simp [fieldNames_cons, hm, setField]
    · simp [fieldNames_cons, hy, setField]

/-- the C++ type that a field takes -/
def kindOf : Check → Kind
  | .str _ | .mode => .str
  | .bool => .bool
  | .int => .int
  | .float => .double
  | .vec | .pad _ | .optVec => .doubles
  | .ints => .ints
  | .mat | .optMat => .matrix

/-! Facts about the tables -/

theorem fields_members : ∀ q ∈ fields, members.lookup q.1 = some (kindOf q.2) := by decide +kernel
theorem fields_special : ∀ q ∈ fields, (q.1 ∈ special ↔ q.2.optional = true) := by decide +kernel
theorem asymRead_special : (∀ x ∈ asymRead, x ∈ special) ∧ ∀ x ∈ special, x ∈ asymRead := by decide +kernel
theorem asymWrite_special : (∀ x ∈ asymWrite, x ∈ special) ∧
    ∀ x ∈ special, x ∈ asymWrite ∨ x = "raxis_cs" ∨ x = "zaxis_cc" := by decide +kernel
theorem special_fields : ∀ x ∈ special, x ∈ fieldNames fields := by decide +kernel
theorem special_members : ∀ x ∈ special, (members.lookup x).isSome := by decide +kernel
theorem lasym_plain : "lasym" ∈ fieldNames fields ∧ "lasym" ∉ special := by decide +kernel
theorem members_lookup : ∀ q ∈ members, members.lookup q.1 = some q.2 := by decide +kernel

theorem lookup_mem {x : String} {k : Kind} : ∀ {l : List (String × Kind)}, l.lookup x = some k → (x, k) ∈ l
  | [], h => by simp at h
  | (y, j) :: t, h => by
    rw [List.lookup_cons] at h
    by_cases e : x = y
    · subst e; simp at h; subst h; exact List.mem_cons_self
    · rw [beq_eq_false_iff_ne.2 e] at h
      exact List.mem_cons_of_mem _ (lookup_mem h)

end Verif.PyWout
