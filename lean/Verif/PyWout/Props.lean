import Verif.PyWout.Lemmas

/-!
# C113: results handed between C++ and Python are the results of the run
-/
namespace Verif.PyWout
open Verif Verif.OutputIo

/-! ## Specification -/

/-- the quantities that only exist without stellarator symmetry -/
def asymmetric : List String := [
  "bmns", "bsubsmnc", "bsubumns", "bsubvmns", "bsupumns", "bsupvmns", "currumns", "currvmns", "gmns", "lmnc", "lmnc_full",
  "raxis_cs", "rmns", "zaxis_cc", "zmnc"]

/-- the members that Python does not show -/
def hidden : List String := ["curlabel", "potvac", "bsubsmns_full", "bsubsmnc_full"]

/-- the longest strings that Python takes -/
def limits : List (String × Nat) := [
  ("input_extension", 100), ("mgrid_file", 200), ("pcurr_type", 20), ("piota_type", 20), ("pmass_type", 20)]

/-- the knots and values of splines, stored with 101 entries -/
def knots : List String := ["am_aux_s", "am_aux_f", "ac_aux_s", "ac_aux_f", "ai_aux_s", "ai_aux_f"]

def Int32 (i : Int) : Prop := -2147483648 ≤ i ∧ i < 2147483648

/-- the integers of a value fit into 32 bits -/
def Fits : Val → Prop
  | .int i => Int32 i
  | .ints v => ∀ i ∈ v, Int32 i
  | _ => True

/-- the wout of a run in C++ -/
structure FromRun (c : Obj) : Prop where
  typed : ∀ q ∈ members, (c q.1).kind = q.2
  fits : ∀ q ∈ members, Fits (c q.1)
  aux : ∀ x ∈ knots, ∀ v, c x = .doubles v → 101 ≤ v.length

/-- what the types of the Python class demand -/
structure Accepted (f : Fields) : Prop where
  short : ∀ q ∈ limits, ∀ s, f q.1 = some (.str s) → s.length ≤ q.2
  mode : ∀ s, f "mgrid_mode" = some (.str s) → s ∈ ["", "R", "S"]

/-- a `VmecWOut` -/
structure Valid (p : Py) : Prop where
  typed : ∀ q ∈ members, ∀ v, p.field q.1 = some v → v.kind = q.2
  fits : ∀ x v, p.field x = some v → Fits v
  present : ∀ q ∈ fields, q.1 ∉ asymmetric → p.field q.1 ≠ none
  accepted : Accepted p.field
  aux : ∀ x ∈ knots, ∀ v, p.field x = some (.doubles v) → 101 ≤ v.length

/-! ## Lemmas -/

theorem special_asymmetric : (∀ x ∈ special, x ∈ asymmetric) ∧ ∀ x ∈ asymmetric, x ∈ special := by decide +kernel

def tableOk (q : String × Check) : Bool :=
  match q.2 with
  | .str n => decide ((q.1, n) ∈ limits)
  | .mode => decide (q.1 = "mgrid_mode")
  | .pad _ => decide (q.1 ∈ knots)
  | _ => true

theorem fields_table : ∀ q ∈ fields, tableOk q = true := by decide +kernel

theorem limits_fields : ∀ q ∈ limits, (q.1, q.2) ∈ limits ∧ q.1 ∉ special ∧ ∃ r ∈ fields, r.1 = q.1 ∧ tableOk r = true ∧ kindOf r.2 = .str ∧ r.1 ≠ "mgrid_mode" := by
  decide +kernel

theorem rightPad_eq {v : List D} {f : D} (h : 101 ≤ v.length) : rightPad v f = v := by
  simp [rightPad, Nat.max_eq_left h]

/-- a value of the right type passes -/
theorem validate_ok {q : String × Check} (hq : q ∈ fields) {v : Val} (hk : v.kind = kindOf q.2)
    (hs : ∀ n s, (q.1, n) ∈ limits → v = .str s → s.length ≤ n) (hm : ∀ s, q.1 = "mgrid_mode" → v = .str s → s ∈ ["", "R", "S"])
    (ha : q.1 ∈ knots → ∀ w, v = .doubles w → 101 ≤ w.length) : validate q.2 v = .ok v := by
  have ht := fields_table q hq
  obtain ⟨x, k⟩ := q
  cases k <;> cases v <;> simp [Val.kind, kindOf] at hk <;> simp only [validate] <;> simp [tableOk] at ht
  · rw [if_pos (hs _ _ ht rfl)]
  · have := hm _ ht rfl
    rw [if_pos]
    simp only [List.mem_cons, List.not_mem_nil, or_false] at this
    tauto
  · rw [rightPad_eq (ha ht _ rfl)]

theorem convert_ok {v : Val} (hf : Fits v) : convert v.kind v = .ok v := by
  cases v <;> simp only [Val.kind, convert]
  · exact if_pos hf
  · rename_i v
    congr 2
    conv_rhs => rw [← List.map_id v]
    refine List.map_congr_left fun i hi => ?_
    obtain ⟨h1, h2⟩ := hf i hi
    simp only [id]
    rw [Int.bmod_def]
    split <;> omega

theorem lasym_bool {c : Obj} (h : ∀ q ∈ members, (c q.1).kind = q.2) : c "lasym" = .bool (truth (c "lasym")) := by
  have := h ("lasym", .bool) (by decide +kernel)
  simp only at this
  cases hc : c "lasym" <;> rw [hc] at this <;> simp [Val.kind] at this
  rfl

/-- the dictionary of attributes -/
theorem fromCpp_attrs (c : Obj) : fromCpp c = (do
    let o ← construct (fun x => if x ∈ fieldNames fields ∧ (x ∉ special ∨ truth (c "lasym") = true) then some (c x) else none)
      fields (fun _ => none)
    .ok ⟨o, []⟩) := by
  rw [fromCpp, readPlain_eq c fields _ fun q hq _ => by rw [fields_members q hq]; rfl]
  simp only [Outcome.bind_ok]
  cases ht : truth (c "lasym")
  · simp only [Bool.false_eq_true, if_false, Outcome.bind_ok, or_false]
  · simp only [if_true, or_true, and_true]
    rw [readAsym_eq c asymRead _ fun x hx => special_members x (asymRead_special.1 x hx)]
    simp only [Outcome.bind_ok]
    congr 2
    funext x
    by_cases hx : x ∈ special
    · simp [asymRead_special.2 x hx, special_fields x hx]
    · have : x ∉ asymRead := fun h => hx (asymRead_special.1 x h)
      simp [this, hx]

/-! ## Theorems -/

open scoped Classical

/-- **C113** (shown): Python shows every quantity with the value it has in C++; the quantities without stellarator symmetry are
    `None` in a symmetric run; nothing is added. -/
theorem C113_shows {c : Obj} (h : FromRun c) (ha : Accepted fun x => some (c x)) :
    ∃ p, fromCpp c = .ok p ∧ p.extra = [] ∧ ∀ x ∈ fieldNames fields,
      p.field x = if x ∈ asymmetric ∧ c "lasym" = .bool false then none else some (c x) := by
  rw [fromCpp_attrs]
  have e : c "lasym" = .bool false ↔ truth (c "lasym") = false := by
    rw [lasym_bool h.typed]; simp [truth]
  rw [construct_eq _ (fun x => if x ∈ asymmetric ∧ c "lasym" = .bool false then none else some (c x))]
  · refine ⟨_, rfl, rfl, fun x hx => ?_⟩
    simp only [if_pos hx]
  · intro q hq
    have hn : q.1 ∈ fieldNames fields := List.mem_map_of_mem hq
    by_cases hx : q.1 ∈ asymmetric ∧ c "lasym" = .bool false
    · right
      have hs := special_asymmetric.2 _ hx.1
      refine ⟨?_, (fields_special q hq).1 hs, if_pos hx⟩
      rw [if_neg]
      rintro ⟨-, h1 | h1⟩
      · exact h1 hs
      · rw [e.1 hx.2] at h1; simp at h1
    · left
      have hm := fields_members q hq
      refine ⟨c q.1, c q.1, ?_, ?_, if_neg hx⟩
      · rw [if_pos]
        refine ⟨hn, ?_⟩
        by_cases hs : q.1 ∈ special
        · right
          cases ht : truth (c "lasym")
          · exact absurd ⟨special_asymmetric.1 _ hs, e.2 ht⟩ hx
          · rfl
        · exact Or.inl hs
      · refine validate_ok hq ?_ ?_ ?_ ?_
        · exact h.typed _ (lookup_mem hm)
        · intro n s hl hv; exact ha.short _ hl s (congrArg some hv)
        · intro s hl hv; rw [hl] at hv; exact ha.mode s (congrArg some hv)
        · intro hk w hw; exact h.aux _ hk w hw

/-- **C113** (refused): the result of a run is refused exactly if a string is longer than its limit or the mode of the mgrid file
    is none of the three: the result of a finished run is lost then. -/
theorem C113_accepted_iff {c : Obj} (h : FromRun c) : (∃ p, fromCpp c = .ok p) ↔ Accepted fun x => some (c x) := by
  refine ⟨?_, fun ha => let ⟨p, hp, _⟩ := C113_shows h ha; ⟨p, hp⟩⟩
  rintro ⟨p, hp⟩
  rw [fromCpp_attrs] at hp
  generalize hA : (fun x => if x ∈ fieldNames fields ∧ (x ∉ special ∨ truth (c "lasym") = true) then some (c x) else none) = A at hp
  cases ho : construct A fields fun _ => none with
  | ok o =>
    have key : ∀ q ∈ fields, q.1 ∉ special → ∃ w, validate q.2 (c q.1) = .ok w := by
      intro q hq hs
      refine construct_ok _ _ _ _ ho q hq (c q.1) ?_
      have hn : q.1 ∈ fieldNames fields := List.mem_map_of_mem hq
      rw [← hA]
      simp [hn, hs]
    constructor
    · intro q hq s hs
      simp only [Option.some.injEq] at hs
      have : ∀ q ∈ limits, (q.1, Check.str q.2) ∈ fields ∧ q.1 ∉ special := by
        intro q hq
        simp only [limits, List.mem_cons, List.not_mem_nil, or_false] at hq
        rcases hq with rfl | rfl | rfl | rfl | rfl <;> refine ⟨?_, by decide +kernel⟩ <;> simp [fields]
      obtain ⟨w, hw⟩ := key _ (this q hq).1 (this q hq).2
      simp only [hs, validate] at hw
      by_contra hc
      rw [if_neg hc] at hw
      simp at hw
    · intro s hs
      simp only [Option.some.injEq] at hs
      obtain ⟨w, hw⟩ := key ("mgrid_mode", .mode) (by simp [fields]) (by decide +kernel)
      simp only [hs, validate] at hw
      by_contra hc
      rw [if_neg] at hw
      · simp at hw
      · simp only [List.mem_cons, List.not_mem_nil, or_false] at hc
        tauto
  | _ => rw [ho] at hp; simp at hp

/-- **C113** (to C++): a `VmecWOut` is handed to C++ with every value it shows; the members that Python does not know, and the
    missing ones, have their initial value. -/
theorem C113_hands {p : Py} (h : Valid p)
    (hx : p.field "lasym" = some (.bool true) → p.field "raxis_cs" ≠ none ∧ p.field "zaxis_cc" ≠ none) :
    ∃ c, toCpp p = .ok c ∧ ∀ q ∈ members,
      c q.1 = if q.1 ∈ hidden ∨ (q.1 ∈ asymmetric ∧ p.field "lasym" = some (.bool false)) then zeroOf q.2
        else (p.field q.1).getD (zeroOf q.2) := by
  have conv : ∀ x k v, members.lookup x = some k → p.field x = some v → convert k v = .ok ((p.field x).getD (.int 0)) := by
    intro x k v hk hv
    rw [hv, Option.getD_some]
    have := h.typed _ (lookup_mem hk) v hv
    simp only at this
    rw [← this]
    exact convert_ok (h.fits x v hv)
  have hl : ∃ b, p.field "lasym" = some (.bool b) := by
    cases hv : p.field "lasym" with
    | none => exact absurd hv (h.present ("lasym", .bool) (by simp [fields]) (by decide +kernel))
    | some v =>
      have := h.typed ("lasym", .bool) (by decide +kernel) v hv
      cases v <;> simp [Val.kind] at this
      exact ⟨_, rfl⟩
  obtain ⟨b, hb⟩ := hl
  rw [toCpp, writePlain_eq p.field (fun x => (p.field x).getD (.int 0))]
  · simp only [Outcome.bind_ok, hb, Option.map_some, Option.getD_some, truth]
    have hid : ∀ x ∈ hidden, x ∉ fieldNames fields ∧ x ∉ special := by decide +kernel
    have hall : ∀ q ∈ members, q.1 ∈ hidden ∨ q.1 ∈ fieldNames fields := by decide +kernel
    have hz : ∀ q ∈ members, zeroObj q.1 = zeroOf q.2 := by
      intro q hq
      rw [zeroObj, members_lookup q hq]
    have hpres : ∀ x ∈ fieldNames fields, x ∉ special → ∃ v, p.field x = some v := by
      intro x hx hs
      obtain ⟨q, hq, rfl⟩ := List.mem_map.1 hx
      exact Option.ne_none_iff_exists'.1 (h.present q hq fun ha => hs (special_asymmetric.2 _ ha))
    cases b with
    | false =>
      refine ⟨_, rfl, fun q hq => ?_⟩
      by_cases h1 : q.1 ∈ hidden
      · rw [if_neg (fun hc => (hid _ h1).1 hc.1), if_pos (Or.inl h1), hz q hq]
      · have h2 : q.1 ∈ fieldNames fields := (hall q hq).resolve_left h1
        by_cases h3 : q.1 ∈ special
        · rw [if_neg (fun hc => hc.2 h3), if_pos (Or.inr ⟨special_asymmetric.1 _ h3, rfl⟩), hz q hq]
        · rw [if_pos ⟨h2, h3⟩, if_neg]
          · obtain ⟨v, hv⟩ := hpres _ h2 h3
            simp [hv]
          · rintro (hc | hc)
            · exact h1 hc
            · exact h3 (special_asymmetric.2 _ hc.1)
    | true =>
      obtain ⟨n1, n2⟩ := hx hb
      obtain ⟨v1, hv1⟩ := Option.ne_none_iff_exists'.1 n1
      obtain ⟨v2, hv2⟩ := Option.ne_none_iff_exists'.1 n2
      have l1 : members.lookup "raxis_cs" = some .doubles := by decide +kernel
      have l2 : members.lookup "zaxis_cc" = some .doubles := by decide +kernel
      simp only [if_true, setattr, l1, l2, hv1, hv2, conv _ _ _ l1 hv1, conv _ _ _ l2 hv2, Outcome.bind_ok]
      rw [writeAsym_eq p.field (fun x => (p.field x).getD (.int 0))]
      · refine ⟨_, rfl, fun q hq => ?_⟩
        simp only [hv2, Option.getD_some]
        have e : ¬ (q.1 ∈ asymmetric ∧ some (Val.bool true) = some (Val.bool false)) := by simp
        by_cases h1 : q.1 ∈ hidden
        · have ha : q.1 ∉ asymWrite := fun hc => (hid _ h1).2 (asymWrite_special.1 _ hc)
          have hr : q.1 ≠ "raxis_cs" := fun hc => (hid _ h1).2 (by rw [hc]; decide +kernel)
          have hz' : q.1 ≠ "zaxis_cc" := fun hc => (hid _ h1).2 (by rw [hc]; decide +kernel)
          rw [if_neg (fun hc => ha hc.1), if_pos (Or.inl h1)]
          simp [OutputIo.put, hr, hz', (hid _ h1).1, hz q hq]
        · have h2 : q.1 ∈ fieldNames fields := (hall q hq).resolve_left h1
          have hne : ¬ (q.1 ∈ hidden ∨ (q.1 ∈ asymmetric ∧ some (Val.bool true) = some (Val.bool false))) :=
            fun hc => hc.elim h1 e
          rw [if_neg hne]
          by_cases h3 : q.1 ∈ special
          · rcases asymWrite_special.2 _ h3 with h4 | h4 | h4
            · cases hp : p.field q.1 with
              | some v => simp [h4]
              | none =>
                have hr : q.1 ≠ "raxis_cs" := fun hc => by rw [hc, hv1] at hp; simp at hp
                have hz' : q.1 ≠ "zaxis_cc" := fun hc => by rw [hc, hv2] at hp; simp at hp
                simp [OutputIo.put, hr, hz', h3, hz q hq]
            · have ha : q.1 ∉ asymWrite := by rw [h4]; decide +kernel
              rw [if_neg (fun hc => ha hc.1)]
              have hz' : q.1 ≠ "zaxis_cc" := by rw [h4]; decide +kernel
              simp [OutputIo.put, h4, hv1]
            · have ha : q.1 ∉ asymWrite := by rw [h4]; decide +kernel
              rw [if_neg (fun hc => ha hc.1)]
              simp [OutputIo.put, h4, hv2]
          · have ha : q.1 ∉ asymWrite := fun hc => h3 (asymWrite_special.1 _ hc)
            have hr : q.1 ≠ "raxis_cs" := fun hc => h3 (by rw [hc]; decide +kernel)
            have hz' : q.1 ≠ "zaxis_cc" := fun hc => h3 (by rw [hc]; decide +kernel)
            obtain ⟨v, hv⟩ := hpres _ h2 h3
            rw [if_neg (fun hc => ha hc.1)]
            simp [OutputIo.put, hr, hz', h2, h3, hv]
      · intro x hx'
        cases hp : p.field x with
        | none => exact Or.inl rfl
        | some v =>
          right
          obtain ⟨k, hk⟩ := Option.isSome_iff_exists.1 (special_members x (asymWrite_special.1 x hx'))
          refine ⟨k, v, hk, rfl, ?_⟩
          have := conv x k v hk hp
          rwa [hp] at this
  · intro q hq hs
    obtain ⟨v, hv⟩ := Option.ne_none_iff_exists'.1 (h.present q hq fun ha => hs (special_asymmetric.2 _ ha))
    exact ⟨_, v, fields_members q hq, hv, conv _ _ _ (fields_members q hq) hv⟩

/-- what a run shows in Python is a `VmecWOut` -/
theorem valid_of_run {c : Obj} (h : FromRun c) (ha : Accepted fun x => some (c x)) {p : Py} (hp : ∀ x ∈ fieldNames fields,
    p.field x = if x ∈ asymmetric ∧ c "lasym" = .bool false then none else some (c x))
    (hn : ∀ x, x ∉ fieldNames fields → p.field x = none) : Valid p := by
  have key : ∀ x v, p.field x = some v → x ∈ fieldNames fields ∧ v = c x := by
    intro x v hv
    by_cases hx : x ∈ fieldNames fields
    · rw [hp x hx] at hv
      split at hv
      · simp at hv
      · exact ⟨hx, (Option.some.inj hv).symm⟩
    · rw [hn x hx] at hv; simp at hv
  have mem : ∀ x ∈ fieldNames fields, ∃ k, (x, k) ∈ members := by
    intro x hx
    obtain ⟨q, hq, rfl⟩ := List.mem_map.1 hx
    exact ⟨_, lookup_mem (fields_members q hq)⟩
  refine ⟨?_, ?_, ?_, ⟨?_, ?_⟩, ?_⟩
  · intro q hq v hv
    rw [(key _ _ hv).2]; exact h.typed q hq
  · intro x v hv
    obtain ⟨hx, rfl⟩ := key x v hv
    obtain ⟨k, hk⟩ := mem x hx
    exact h.fits _ hk
  · intro q hq hna
    rw [hp q.1 (List.mem_map_of_mem hq), if_neg (fun hc => hna hc.1)]
    simp
  · intro q hq s hs
    exact ha.short q hq s (congrArg some (key _ _ hs).2.symm)
  · intro s hs
    exact ha.mode s (congrArg some (key _ _ hs).2.symm)
  · intro x hx v hv
    exact h.aux x hx v (key _ _ hv).2.symm

theorem construct_out (a : Fields) : ∀ (l : List (String × Check)) (o o' : Fields), construct a l o = .ok o' →
    ∀ x, x ∉ fieldNames l → o' x = o x
  | [], _, _, h, x, _ => by simp only [construct, Outcome.ok.injEq] at h; rw [h]
  | (y, k) :: t, o, o', h, x, hx => by
    rw [fieldNames_cons, List.mem_cons, not_or] at hx
    simp only [construct] at h
    have key : ∀ v, construct a t (setField o y v) = .ok o' → o' x = o x := fun v hv => by
      rw [construct_out a t _ _ hv x hx.2]; simp [setField, hx.1]
    split at h
    · cases hw : validate k _ with
      | ok w => rw [hw] at h; exact key _ h
      | _ => rw [hw] at h; simp at h
    · split at h
      · exact key _ h
      · simp at h

theorem fromCpp_out {c : Obj} {p : Py} (h : fromCpp c = .ok p) : ∀ x, x ∉ fieldNames fields → p.field x = none := by
  rw [fromCpp_attrs] at h
  intro x hx
  cases ho : construct (fun x => if x ∈ fieldNames fields ∧ (x ∉ special ∨ truth (c "lasym") = true) then some (c x) else none)
      fields fun _ => none with
  | ok o =>
    rw [ho] at h
    simp only [Outcome.bind_ok, Outcome.ok.injEq] at h
    rw [← h]
    exact construct_out _ _ _ _ ho x hx
  | _ => rw [ho] at h; simp at h

/-- **C113** (restart): the result of a run that went to Python and comes back for a hot restart has every member it had, except
    `bsubsmns_full`, `bsubsmnc_full`, `curlabel`, `potvac` and, in a symmetric run, the quantities without symmetry. -/
theorem C113_restart {c : Obj} (h : FromRun c) {p : Py} (hp : fromCpp c = .ok p) :
    ∃ c', toCpp p = .ok c' ∧ ∀ q ∈ members,
      c' q.1 = if q.1 ∈ hidden ∨ (q.1 ∈ asymmetric ∧ c "lasym" = .bool false) then zeroOf q.2 else c q.1 := by
  have ha := (C113_accepted_iff h).1 ⟨p, hp⟩
  obtain ⟨p', hp', -, hf⟩ := C113_shows h ha
  rw [hp] at hp'
  obtain rfl := Outcome.ok.inj hp'
  have hv := valid_of_run h ha hf (fromCpp_out hp)
  have hl : p.field "lasym" = some (c "lasym") := by
    rw [hf _ lasym_plain.1, if_neg]
    rintro ⟨h1, -⟩
    exact lasym_plain.2 (special_asymmetric.2 _ h1)
  obtain ⟨c', hc, he⟩ := C113_hands hv (by
    intro hb
    rw [hl, Option.some.injEq] at hb
    constructor
    · rw [hf "raxis_cs" (by decide +kernel), hb]; simp
    · rw [hf "zaxis_cc" (by decide +kernel), hb]; simp)
  refine ⟨c', hc, fun q hq => ?_⟩
  rw [he q hq, hl]
  by_cases h1 : q.1 ∈ hidden ∨ (q.1 ∈ asymmetric ∧ c "lasym" = .bool false)
  · rw [if_pos h1, if_pos]
    rcases h1 with h1 | ⟨h1, h2⟩
    · exact Or.inl h1
    · exact Or.inr ⟨h1, by rw [h2]⟩
  · rw [if_neg h1, if_neg]
    · have hall : ∀ q ∈ members, q.1 ∈ hidden ∨ q.1 ∈ fieldNames fields := by decide +kernel
      have h2 := (hall q hq).resolve_left fun hc => h1 (Or.inl hc)
      rw [hf _ h2, if_neg fun hc => h1 (Or.inr hc)]
      rfl
    · rintro (h2 | ⟨h2, h3⟩)
      · exact h1 (Or.inl h2)
      · exact h1 (Or.inr ⟨h2, Option.some.inj h3⟩)

/-- in particular the state that a hot restart starts from is the state of the run, `vmec.cc:709-722` -/
theorem C113_restart_state {c : Obj} (h : FromRun c) {p : Py} (hp : fromCpp c = .ok p) :
    ∃ c', toCpp p = .ok c' ∧ c' "rmnc" = c "rmnc" ∧ c' "zmns" = c "zmns" ∧ c' "lmns_full" = c "lmns_full" := by
  obtain ⟨c', hc, he⟩ := C113_restart h hp
  refine ⟨c', hc, ?_, ?_, ?_⟩
  · exact (he ("rmnc", .matrix) (by decide +kernel)).trans (if_neg (by simp [hidden, asymmetric]))
  · exact (he ("zmns", .matrix) (by decide +kernel)).trans (if_neg (by simp [hidden, asymmetric]))
  · exact (he ("lmns_full", .matrix) (by decide +kernel)).trans (if_neg (by simp [hidden, asymmetric]))

/-- **C113** (there and back): a `VmecWOut` that went to C++ comes back with the same fields.  A field without symmetry that is
    `None` although `lasym` is set comes back as an empty matrix, one that is set although `lasym` is not comes back as `None`. -/
theorem C113_back {p : Py} (h : Valid p)
    (hx' : p.field "lasym" = some (.bool true) → p.field "raxis_cs" ≠ none ∧ p.field "zaxis_cc" ≠ none) :
    ∃ c p', toCpp p = .ok c ∧ fromCpp c = .ok p' ∧ p'.extra = [] ∧ ∀ x ∈ fieldNames fields, p'.field x =
      if x ∈ asymmetric then
        if p.field "lasym" = some (.bool true) then some ((p.field x).getD (.matrix ⟨0, 0, fun _ _ => 0⟩)) else none
      else p.field x := by
  obtain ⟨c, hc, he⟩ := C113_hands h hx'
  have hall : ∀ x ∈ fieldNames fields, x ∉ hidden := by decide +kernel
  have hm : ∀ x ∈ fieldNames fields, ∃ k, (x, k) ∈ members := by
    intro x hx
    obtain ⟨q, hq, rfl⟩ := List.mem_map.1 hx
    exact ⟨_, lookup_mem (fields_members q hq)⟩
  have hcx : ∀ x ∈ fieldNames fields, x ∉ asymmetric → some (c x) = p.field x := by
    intro x hx ha
    obtain ⟨q, hq, rfl⟩ := List.mem_map.1 hx
    obtain ⟨v, hv⟩ := Option.ne_none_iff_exists'.1 (h.present q hq ha)
    have := he _ (lookup_mem (fields_members q hq))
    simp only at this
    rw [this, if_neg, hv]
    · rfl
    · rintro (h1 | h1)
      · exact hall _ hx h1
      · exact ha h1.1
  have hl : some (c "lasym") = p.field "lasym" := hcx _ lasym_plain.1 fun ha => lasym_plain.2 (special_asymmetric.2 _ ha)
  have hzero : ∀ k, (zeroOf k).kind = k ∧ Fits (zeroOf k) := by
    intro k; cases k <;> simp [zeroOf, Val.kind, Fits, Int32]
  have hcase : ∀ q ∈ members, c q.1 = zeroOf q.2 ∨ p.field q.1 = some (c q.1) := by
    intro q hq
    rw [he q hq]
    split
    · exact Or.inl rfl
    · cases hp : p.field q.1 with
      | none => left; rfl
      | some v => right; rfl
  have hrun : FromRun c := by
    refine ⟨?_, ?_, ?_⟩
    · intro q hq
      rcases hcase q hq with h1 | h1
      · rw [h1]; exact (hzero _).1
      · exact h.typed q hq _ h1
    · intro q hq
      rcases hcase q hq with h1 | h1
      · rw [h1]; exact (hzero _).2
      · exact h.fits _ _ h1
    · intro x hk v hv
      have hk' : ∀ x ∈ knots, x ∈ fieldNames fields ∧ x ∉ asymmetric := by decide +kernel
      refine h.aux x hk v ?_
      rw [← hcx x (hk' x hk).1 (hk' x hk).2, hv]
  have hacc : Accepted fun x => some (c x) := by
    constructor
    · intro q hq s hs
      have hq' : ∀ q ∈ limits, q.1 ∈ fieldNames fields ∧ q.1 ∉ asymmetric := by decide +kernel
      refine h.accepted.short q hq s ?_
      rw [← hcx _ (hq' q hq).1 (hq' q hq).2]; exact hs
    · intro s hs
      refine h.accepted.mode s ?_
      rw [← hcx "mgrid_mode" (by decide +kernel) (by decide +kernel)]; exact hs
  obtain ⟨p', hp', hex, hf⟩ := C113_shows hrun hacc
  refine ⟨c, p', hc, hp', hex, fun x hx => ?_⟩
  rw [hf x hx]
  by_cases ha : x ∈ asymmetric
  · rw [if_pos ha, ← hl]
    by_cases hb : c "lasym" = .bool false
    · rw [if_pos ⟨ha, hb⟩, if_neg]
      rw [hb]; simp
    · rw [if_neg fun hc => hb hc.2]
      have hb' : c "lasym" = .bool true := by
        rw [lasym_bool hrun.typed] at hb ⊢
        cases ht : truth (c "lasym")
        · rw [ht] at hb; simp at hb
        · rfl
      rw [if_pos (by rw [hb'])]
      obtain ⟨k, hk⟩ := hm x hx
      have := he _ hk
      simp only at this
      rw [this, if_neg]
      · refine congrArg some ?_
        cases hp : p.field x with
        | some v => rfl
        | none =>
          have ht : ∀ q ∈ members, q.1 ∈ asymmetric → q.2 = .matrix ∨ q.1 = "raxis_cs" ∨ q.1 = "zaxis_cc" := by decide +kernel
          have hlt : p.field "lasym" = some (.bool true) := by rw [← hl, hb']
          rcases ht _ hk ha with h1 | h1 | h1
          · simp only at h1; rw [h1]; rfl
          · simp only at h1; rw [h1] at hp; exact absurd hp (hx' hlt).1
          · simp only at h1; rw [h1] at hp; exact absurd hp (hx' hlt).2
      · rintro (h1 | ⟨-, h1⟩)
        · exact hall _ hx h1
        · rw [← hl, hb'] at h1; simp at h1
  · rw [if_neg ha, if_neg fun hc => ha hc.1]
    exact hcx x hx ha

/-- **C113** (there and back), the claim as such: if the fields without symmetry are given exactly if `lasym` is set, every field
    comes back.  Missing to the full claim: the additional attributes are lost (`C113_extra_fails`), and so are arrays that are
    `None` with `lasym` (`C113_none_fails`). -/
theorem C113_back_partial {p : Py} (h : Valid p) (hc : ∀ x ∈ asymmetric, (p.field x ≠ none ↔ p.field "lasym" = some (.bool true))) :
    ∃ c p', toCpp p = .ok c ∧ fromCpp c = .ok p' ∧ ∀ x ∈ fieldNames fields, p'.field x = p.field x := by
  obtain ⟨c, p', h1, h2, -, h3⟩ := C113_back h fun hb =>
    ⟨(hc "raxis_cs" (by decide +kernel)).2 hb, (hc "zaxis_cc" (by decide +kernel)).2 hb⟩
  refine ⟨c, p', h1, h2, fun x hx => ?_⟩
  rw [h3 x hx]
  by_cases ha : x ∈ asymmetric
  · rw [if_pos ha]
    by_cases hb : p.field "lasym" = some (.bool true)
    · rw [if_pos hb]
      obtain ⟨v, hv⟩ := Option.ne_none_iff_exists'.1 ((hc x ha).2 hb)
      rw [hv]; rfl
    · rw [if_neg hb]
      by_contra hne
      exact hb ((hc x ha).1 fun hn => hne hn.symm)
  · rw [if_neg ha]

/-- **C113** fails: two results that differ in `bsubsmns_full` are the same object in Python. -/
theorem C113_hidden_fails (c : Obj) (a b : Mat D) :
    fromCpp (OutputIo.put c "bsubsmns_full" (.matrix a)) = fromCpp (OutputIo.put c "bsubsmns_full" (.matrix b)) := by
  rw [fromCpp_attrs, fromCpp_attrs]
  have hl : ∀ m : Mat D, OutputIo.put c "bsubsmns_full" (.matrix m) "lasym" = c "lasym" := fun m => by
    simp [OutputIo.put]
  rw [hl, hl]
  congr 2
  funext x
  by_cases hx : x = "bsubsmns_full"
  · have : x ∉ fieldNames fields := by rw [hx]; decide +kernel
    simp [this]
  · simp [OutputIo.put, hx]

/-- **C113** fails: additional attributes are lost on the way. -/
theorem C113_extra_fails {p : Py} {c : Obj} {p' : Py} (h : toCpp p = .ok c) (h' : fromCpp c = .ok p') :
    p'.extra = [] ∧ ∀ e, toCpp { p with extra := e } = .ok c := by
  refine ⟨?_, fun e => by rw [toCpp] at h ⊢; exact h⟩
  rw [fromCpp_attrs] at h'
  cases ho : construct (fun x => if x ∈ fieldNames fields ∧ (x ∉ special ∨ truth (c "lasym") = true) then some (c x) else none)
      fields fun _ => none with
  | ok o =>
    rw [ho] at h'
    simp only [Outcome.bind_ok, Outcome.ok.injEq] at h'
    rw [← h']
  | _ => rw [ho] at h'; simp at h'

/-! ## A concrete object -/

/-- a symmetric run with 101 knots -/
def sample (mode : String) (lasym : Bool) : Obj := fun x =>
  if x = "lasym" then .bool lasym
  else if x = "mgrid_mode" then .str mode
  else if x ∈ knots then .doubles (List.replicate 101 (.fin 1))
  else if x = "ns" then .int 51
  else if x = "rmnc" then .matrix ⟨1, 2, fun _ _ => .fin 3⟩
  else zeroObj x

theorem sample_run (mode : String) (lasym : Bool) : FromRun (sample mode lasym) := by
  have hz : ∀ k, (zeroOf k).kind = k ∧ Fits (zeroOf k) := by
    intro k; cases k <;> simp [zeroOf, Val.kind, Fits, Int32]
  have hk : ∀ q ∈ members, (q.1 = "lasym" → q.2 = .bool) ∧ (q.1 = "mgrid_mode" → q.2 = .str) ∧ (q.1 ∈ knots → q.2 = .doubles) ∧
      (q.1 = "ns" → q.2 = .int) ∧ (q.1 = "rmnc" → q.2 = .matrix) := by decide +kernel
  refine ⟨fun q hq => ?_, fun q hq => ?_, fun x hx v hv => ?_⟩
  · obtain ⟨h1, h2, h3, h4, h5⟩ := hk q hq
    unfold sample
    split_ifs with e1 e2 e3 e4 e5
    · rw [h1 e1]; rfl
    · rw [h2 e2]; rfl
    · rw [h3 e3]; rfl
    · rw [h4 e4]; rfl
    · rw [h5 e5]; rfl
    · rw [zeroObj, members_lookup q hq]; exact (hz _).1
  · unfold sample
    split_ifs with e1 e2 e3 e4 e5
    · trivial
    · trivial
    · trivial
    · simp [Fits, Int32]
    · trivial
    · rw [zeroObj, members_lookup q hq]; exact (hz _).2
  · have hn : x ≠ "lasym" ∧ x ≠ "mgrid_mode" := by
      constructor <;> (rintro rfl; revert hx; decide +kernel)
    simp only [sample, hn.1, hn.2, hx, if_true, if_false, Val.doubles.injEq] at hv
    rw [← hv, List.length_replicate]

theorem sample_limits (mode : String) (lasym : Bool) : ∀ q ∈ limits, sample mode lasym q.1 = .str "" := by
  have : ∀ q ∈ limits, q.1 ≠ "lasym" ∧ q.1 ≠ "mgrid_mode" ∧ q.1 ∉ knots ∧ q.1 ≠ "ns" ∧ q.1 ≠ "rmnc" ∧
      members.lookup q.1 = some .str := by decide +kernel
  intro q hq
  obtain ⟨h1, h2, h3, h4, h5, h6⟩ := this q hq
  simp [sample, h1, h2, h3, h4, h5, zeroObj, h6, zeroOf]

theorem sample_accepted (mode : String) (lasym : Bool) :
    (Accepted fun x => some (sample mode lasym x)) ↔ mode ∈ ["", "R", "S"] := by
  constructor
  · intro h
    exact h.mode mode (by simp [sample])
  · intro h
    refine ⟨fun q hq s hs => ?_, fun s hs => ?_⟩
    · simp only [Option.some.injEq] at hs
      rw [sample_limits mode lasym q hq] at hs
      simp only [Val.str.injEq] at hs
      rw [← hs]; simp
    · simp only [sample, Option.some.injEq] at hs
      have : s = mode := by simpa using hs.symm
      rw [this]; exact h

/-- the hypotheses of `C113_shows` and `C113_restart` are met -/
example : ∃ p, fromCpp (sample "S" false) = .ok p ∧ p.field "rmns" = none ∧
    p.field "rmnc" = some (.matrix ⟨1, 2, fun _ _ => .fin 3⟩) := by
  obtain ⟨p, hp, -, hf⟩ := C113_shows (sample_run "S" false) ((sample_accepted "S" false).2 (by simp))
  refine ⟨p, hp, ?_, ?_⟩
  · rw [hf "rmns" (by decide +kernel), if_pos]
    exact ⟨by decide +kernel, rfl⟩
  · rw [hf "rmnc" (by decide +kernel), if_neg fun hc => absurd hc.1 (by decide +kernel)]
    simp [sample, knots]

/-- the hypotheses of `C113_hands`, `C113_back` and `C113_back_partial` are met: an asymmetric run -/
example : ∃ p, Valid p ∧ p.field "lasym" = some (.bool true) ∧ ∀ x ∈ asymmetric, p.field x ≠ none := by
  have ha := (sample_accepted "R" true).2 (by simp)
  obtain ⟨p, hp, -, hf⟩ := C113_shows (sample_run "R" true) ha
  have hl : sample "R" true "lasym" = .bool true := rfl
  refine ⟨p, valid_of_run (sample_run "R" true) ha hf (fromCpp_out hp), ?_, fun x hx => ?_⟩
  · rw [hf "lasym" (by decide +kernel), hl]; simp
  · rw [hf x (special_fields x (special_asymmetric.2 x hx)), hl]; simp

/-- **C113** fails: an mgrid file with another letter for its mode ("N") is read and the run is computed, but its result is not
    returned (`mgrid_provider.cc:174` takes any string). -/
theorem C113_mode_fails : FromRun (sample "N" false) ∧ ¬ ∃ p, fromCpp (sample "N" false) = .ok p := by
  refine ⟨sample_run _ _, fun h => ?_⟩
  have := (sample_accepted "N" false).1 ((C113_accepted_iff (sample_run _ _)).1 h)
  revert this
  decide +kernel

/-- **C113** fails: with `lasym` and the axis arrays `None`, nothing is handed over; an array that is `None` comes back as an empty
    matrix. -/
theorem C113_none_fails :
    (∀ p : Py, Valid p → p.field "lasym" = some (.bool true) → p.field "raxis_cs" = none → ∀ c, toCpp p ≠ .ok c) ∧
    ∀ p : Py, Valid p → p.field "lasym" = some (.bool true) → p.field "raxis_cs" ≠ none → p.field "zaxis_cc" ≠ none →
      p.field "rmns" = none → ∃ c p', toCpp p = .ok c ∧ fromCpp c = .ok p' ∧ p'.field "rmns" ≠ p.field "rmns" := by
  constructor
  · intro p _ hl hr c hc
    rw [toCpp] at hc
    cases hw : writePlain p.field fields zeroObj with
    | ok o =>
      have l1 : members.lookup "raxis_cs" = some .doubles := by decide +kernel
      rw [hw] at hc
      simp [hl, truth, setattr, l1, hr] at hc
    | _ => rw [hw] at hc; simp at hc
  · intro p h hl h1 h2 hr
    obtain ⟨c, p', e1, e2, -, e3⟩ := C113_back h fun _ => ⟨h1, h2⟩
    refine ⟨c, p', e1, e2, ?_⟩
    rw [e3 "rmns" (by decide +kernel), if_pos (by decide +kernel), if_pos hl, hr]
    simp

/-! ## The other classes -/

/-- the Python name of a member: `lambda` is a keyword -/
def pyName (m : String) : String := if m = "lambda" then "lambda_" else m

/-- **C113** (other classes): every member of the other output classes is shown under its name with its value, and nothing else. -/
theorem C113_others : ∀ q ∈ others, ∀ c : Obj, (∀ m ∈ q.2.1, (c m.1).kind = m.2) →
    ∃ o, fromCppOther q.1 q.2.1 q.2.2 c = .ok o ∧ (∀ m ∈ q.2.1, o (pyName m.1) = some (c m.1)) ∧
      ∀ f, o f ≠ none → ∃ m ∈ q.2.1, f = pyName m.1 := by
  have t1 : ∀ q ∈ others, ∀ f ∈ q.2.2, q.2.1.lookup (cppName q.1 f.1) = some (kindOf f.2) ∧ f.2.optional = false ∧
      pyName (cppName q.1 f.1) = f.1 := by decide +kernel
  have t2 : ∀ q ∈ others, ∀ m ∈ q.2.1, pyName m.1 ∈ fieldNames q.2.2 ∧ cppName q.1 (pyName m.1) = m.1 := by decide +kernel
  have t3 : ∀ q ∈ others, ∀ f ∈ q.2.2, (match f.2 with | .float | .vec | .mat => true | _ => false) = true := by decide +kernel
  intro q hq c hc
  rw [fromCppOther, readAll_eq q.1 q.2.1 c q.2.2 _ fun f hf => by rw [(t1 q hq f hf).1]; rfl]
  simp only [Outcome.bind_ok]
  rw [construct_eq _ (fun x => some (c (cppName q.1 x)))]
  · refine ⟨_, rfl, fun m hm => ?_, fun f hf => ?_⟩
    · simp only [if_pos (t2 q hq m hm).1, (t2 q hq m hm).2]
    · by_cases hn : f ∈ fieldNames q.2.2
      · obtain ⟨r, hr, rfl⟩ := List.mem_map.1 hn
        exact ⟨_, lookup_mem (t1 q hq r hr).1, (t1 q hq r hr).2.2.symm⟩
      · simp [hn] at hf
  · intro f hf
    left
    refine ⟨c (cppName q.1 f.1), c (cppName q.1 f.1), if_pos (List.mem_map_of_mem hf), ?_, rfl⟩
    have hk := hc _ (lookup_mem (t1 q hq f hf).1)
    have ht := t3 q hq f hf
    simp only at hk
    obtain ⟨x, k⟩ := f
    simp only at hk ht ⊢
    generalize c (cppName q.1 x) = v at hk ⊢
    cases k <;> simp at ht <;> cases v <;> simp [Val.kind, kindOf] at hk <;> rfl

/-! ## The input object in the output -/

/-- **C113** (snapshot): as long as the input object of an output was not changed, a hot restart from this output is either refused
    or reads only elements that exist. -/
theorem C113_snapshot_partial {h : Heap} {r : Nat} {s : Option Output} {o : Output} (ho : pyRun h r s = .ok o) (h' : Heap) (r' : Nat)
    (hs : h' o.input = h r) (hn : (h' r').ns_array ≠ []) :
    (∃ o', pyRun h' r' (some o) = .ok o') ∨ ∃ m, pyRun h' r' (some o) = .status m := by
  have ho' : ∃ n, (h r).ns_array.getLast? = some n ∧ o = ⟨r, mnmaxOf (h r), n⟩ := by
    unfold pyRun at ho
    have key : ∀ u : Outcome Unit, (do u; (match (h r).ns_array.getLast? with
        | none => Outcome.status "ns_array"
        | some n => Outcome.ok (⟨r, mnmaxOf (h r), n⟩ : Output))) = .ok o →
        ∃ n, (h r).ns_array.getLast? = some n ∧ o = ⟨r, mnmaxOf (h r), n⟩ := by
      intro u hu
      cases u with
      | ok u =>
        simp only [Outcome.bind_ok] at hu
        cases hl : (h r).ns_array.getLast? with
        | none => rw [hl] at hu; simp at hu
        | some n => rw [hl] at hu; exact ⟨n, rfl, (Outcome.ok.inj hu).symm⟩
      | _ => simp at hu
    exact key _ ho
  obtain ⟨n, hl, rfl⟩ := ho'
  simp only at hs
  obtain ⟨m, hm⟩ : ∃ m, (h' r').ns_array.head? = some m := by
    cases hh : (h' r').ns_array with
    | nil => exact absurd hh hn
    | cons a t => exact ⟨a, rfl⟩
  obtain ⟨l, hl'⟩ : ∃ l, (h' r').ns_array.getLast? = some l := ⟨_, List.getLast?_eq_some_getLast hn⟩
  unfold pyRun restart
  simp only [hs, HotRestart.checkInitialState, hl, hm, hl', copyState]
  by_cases e1 : (h r).lasym ≠ (h' r').lasym
  · right; rw [if_pos e1]; exact ⟨_, rfl⟩
  · rw [if_neg e1]
    by_cases e2 : (h r).mpol ≠ (h' r').mpol
    · right; rw [if_pos e2]; exact ⟨_, rfl⟩
    · rw [if_neg e2]
      by_cases e3 : (h r).ntor ≠ (h' r').ntor
      · right; rw [if_pos e3]; exact ⟨_, rfl⟩
      · rw [if_neg e3]
        by_cases e4 : n ≠ m
        · right; rw [if_pos e4]; exact ⟨_, rfl⟩
        · left
          push Not at e2 e3 e4
          rw [if_neg (not_not.2 e4), if_pos]
          · exact ⟨_, rfl⟩
          · refine ⟨by omega, ?_⟩
            simp only [mnmaxOf, e2, e3]
            exact le_refl _

/-- the hypotheses are met: a restart with the same number of surfaces runs -/
example : ∃ h o o', pyRun h 0 none = .ok o ∧ pyRun h 1 (some o) = .ok o' :=
  ⟨fun r => if r = 0 then ⟨false, 5, 4, [13, 25], 1⟩ else ⟨false, 5, 4, [25], 1⟩, ⟨0, 41, 25⟩, ⟨1, 41, 25⟩, by
    simp [pyRun, restart, mnmaxOf], by simp [pyRun, restart, mnmaxOf, HotRestart.checkInitialState, copyState]⟩

/-- **C113** fails: the output holds the input object itself.  If it is changed after the run (here the number of surfaces), the
    check compares the new input with itself and the hot restart reads outside of the arrays of the old result; with a copy of the
    input in the output the restart would be refused. -/
theorem C113_snapshot_fails : ∃ (h h' : Heap) (o : Output) (m : String), pyRun h 0 none = .ok o ∧ (∀ r, r ≠ 0 → h' r = h r) ∧
    pyRun h' 0 (some o) = .ub m ∧ ∃ m', HotRestart.checkInitialState (h 0) (h' 0) = .status m' := by
  refine ⟨fun _ => ⟨false, 5, 4, [25], 1⟩, fun r => if r = 0 then ⟨false, 5, 4, [51], 1⟩ else ⟨false, 5, 4, [25], 1⟩, ⟨0, 41, 25⟩,
    "element of wout out of range", ?_, ?_, ?_, "ns_array", ?_⟩
  · rfl
  · intro r hr; simp [hr]
  · simp [pyRun, restart, HotRestart.checkInitialState, copyState]
  · simp [HotRestart.checkInitialState]

/-- **C113.** Knots and values of splines with fewer than 101 entries are continued on the right up to 101 entries, knots with -1
    and values with 0; the given entries stay where they are. -/
theorem C113_padded : ∀ x ∈ knots, ∀ v : List D, ∃ k w, (x, k) ∈ fields ∧ validate k (.doubles v) = .ok (.doubles w) ∧
    w.length = max v.length 101 ∧ (∀ i, i < v.length → w[i]? = v[i]?) ∧
    ∀ i, v.length ≤ i → i < 101 → w[i]? = some (.fin (if x ∈ ["am_aux_s", "ac_aux_s", "ai_aux_s"] then -1 else 0)) := by
  intro x hx v
  have hf : (x, Check.pad (if x ∈ ["am_aux_s", "ac_aux_s", "ai_aux_s"] then -1 else 0)) ∈ fields := by
    simp only [knots, List.mem_cons, List.not_mem_nil, or_false] at hx
    rcases hx with rfl | rfl | rfl | rfl | rfl | rfl <;> simp [fields]
  refine ⟨_, _, hf, rfl, ?_, fun i hi => ?_, fun i h1 h2 => ?_⟩
  · simp only [rightPad, List.length_append, List.length_replicate]; omega
  · exact List.getElem?_append_left hi
  · unfold rightPad
    rw [List.getElem?_append_right h1, List.getElem?_replicate, if_pos (by omega)]
    split <;> simp

/-- three knots: all three stay in front -/
example : ∃ w : List D, validate (.pad (-1)) (.doubles [.fin 0, .fin (1 / 2), .fin 1]) = .ok (.doubles w) ∧ w.length = 101 ∧
    w[1]? = some (.fin (1 / 2)) ∧ w[3]? = some (.fin (-1)) := ⟨_, rfl, by simp [rightPad], rfl, rfl⟩

end Verif.PyWout
