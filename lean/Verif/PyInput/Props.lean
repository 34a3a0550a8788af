import Verif.PyInput.Model
import Verif.Resize.Props
import Verif.Common.Lawful
import Mathlib.Algebra.Order.Group.Abs
import Mathlib.Algebra.Order.Group.Int

/-!
# C37, C50
-/
namespace Verif.PyInput
open Verif Verif.Resize

variable {α : Type} [Zero α]

/-! ## C37 -/

/-- specification: the coefficient of mode `(m, n)` described by a sparse list; a later entry for the same mode
    replaces an earlier one -/
def listed (l : List (Entry α)) (m n : Int) : α :=
  l.foldl (fun acc e => if e.m = m ∧ e.n = n then e.value else acc) 0

theorem listed_append (l : List (Entry α)) (e : Entry α) (m n : Int) :
    listed (l ++ [e]) m n = if e.m = m ∧ e.n = n then e.value else listed l m n := by
  simp [listed, List.foldl_append]

theorem listed_none (l : List (Entry α)) (m n : Int) (h : ∀ e ∈ l, ¬ (e.m = m ∧ e.n = n)) :
    listed l m n = 0 := by
  induction l using List.reverseRecOn with
  | nil => rfl
  | append_singleton l e ih =>
    rw [listed_append, if_neg (h e (by simp)), ih (fun e he => h e (by simp [he]))]

theorem listed_some (l : List (Entry α)) (m n : Int) (v : α) (hx : ∃ e ∈ l, e.m = m ∧ e.n = n)
    (h : ∀ e ∈ l, e.m = m ∧ e.n = n → e.value = v) : listed l m n = v := by
  induction l using List.reverseRecOn with
  | nil => obtain ⟨e, he, _⟩ := hx; simp at he
  | append_singleton l e ih =>
    rw [listed_append]
    split
    · rename_i hk; exact h e (by simp) hk
    · rename_i hk
      apply ih
      · obtain ⟨e', he', hk'⟩ := hx
        rcases List.mem_append.mp he' with h1 | h1
        · exact ⟨e', h1, hk'⟩
        · simp at h1; subst h1; exact absurd hk' hk
      · intro e' he' hk'; exact h e' (by simp [he']) hk'

/-- an entry that fits the resolution -/
def Fits (mpol ntor : Int) (e : Entry α) : Prop := (0 ≤ e.m ∧ e.m < mpol) ∧ -ntor ≤ e.n ∧ e.n ≤ ntor

/-- A sparse list whose modes all fit becomes the array with exactly the listed coefficients. -/
theorem C37_sparse_to_dense (l : List (Entry α)) (mpol ntor : Int) (hm : 0 ≤ mpol) (hn : 0 ≤ ntor)
    (h : ∀ e ∈ l, Fits mpol ntor e) :
    ∃ d, sparseToDense l mpol ntor = .ok d ∧ BdyShape mpol ntor d ∧
      ∀ m n, 0 ≤ m → m < mpol → -ntor ≤ n → n ≤ ntor → d.val m (n + ntor) = listed l m n := by
  unfold sparseToDense npZeros
  rw [if_pos ⟨hm, by omega⟩, Outcome.bind_ok]
  induction l using List.reverseRecOn with
  | nil => exact ⟨_, rfl, ⟨rfl, rfl⟩, fun _ _ _ _ _ _ => rfl⟩
  | append_singleton l e ih =>
    obtain ⟨d, hd, hs, hv⟩ := ih (fun e he => h e (by simp [he]))
    obtain ⟨⟨f1, f2⟩, f3, f4⟩ := h e (by simp)
    rw [List.foldlM_append, hd, Outcome.bind_ok]
    refine ⟨⟨d.rows, d.cols, fun i' j' => if i' = e.m ∧ j' = e.n + ntor then e.value else d.val i' j'⟩,
      ?_, hs, ?_⟩
    · rw [List.foldlM_cons]
      unfold sparseStep
      dsimp only
      rw [if_pos ⟨⟨f1, f2⟩, by omega, by rw [hs.2]; omega⟩,
        Mat.set_ok _ _ _ _ ⟨⟨f1, by rw [hs.1]; exact f2⟩, by omega, by rw [hs.2]; omega⟩, Outcome.bind_ok]
      rfl
    · intro m n a b c c'
      dsimp only
      rw [listed_append]
      by_cases k : e.m = m ∧ e.n = n
      · rw [if_pos k, if_pos ⟨k.1.symm, by omega⟩]
      · rw [if_neg k, if_neg (fun k' => k ⟨k'.1.symm, by omega⟩), hv m n a b c c']

theorem foldlM_bad (mpol ntor : Int) (l : List (Entry α)) :
    ∀ d : Mat α, d.rows = mpol → d.cols = 2 * ntor + 1 → (∃ e ∈ l, ¬ Fits mpol ntor e) →
      ∃ msg, l.foldlM (sparseStep mpol ntor) d = .status msg := by
  induction l with
  | nil => intro d _ _ h; obtain ⟨e, he, _⟩ := h; simp at he
  | cons e l ih =>
    intro d hr hc h
    rw [List.foldlM_cons]
    by_cases k : (0 ≤ e.m ∧ e.m < mpol) ∧ 0 ≤ e.n + ntor ∧ e.n + ntor < d.cols
    · unfold sparseStep
      dsimp only
      rw [if_pos k, Mat.set_ok _ _ _ _ ⟨⟨k.1.1, by rw [hr]; exact k.1.2⟩, k.2⟩, Outcome.bind_ok]
      apply ih
      · exact hr
      · exact hc
      · obtain ⟨e', he', hb⟩ := h
        rcases List.mem_cons.mp he' with rfl | h1
        · exact absurd ⟨k.1, by omega, by omega⟩ hb
        · exact ⟨e', h1, hb⟩
    · unfold sparseStep
      dsimp only
      rw [if_neg k]
      exact ⟨_, rfl⟩

/-- A list with a mode that does not fit (negative `m`, `m ≥ mpol`, `|n| > ntor`) is rejected when the
    resolution is given. -/
theorem C37_rejects (l : List (Entry α)) (mpol ntor : Int) (h : ∃ e ∈ l, ¬ Fits mpol ntor e) :
    ∃ msg, sparseToDense l mpol ntor = .status msg := by
  unfold sparseToDense npZeros
  split
  · exact foldlM_bad mpol ntor l _ rfl rfl h
  · exact ⟨_, rfl⟩

theorem fold_max (l : List (Entry α)) : ∀ r : Int × Int,
    let s := l.foldl (fun (r : Int × Int) e => (max r.1 e.m, max r.2 |e.n|)) r
    r.1 ≤ s.1 ∧ r.2 ≤ s.2 ∧ ∀ e ∈ l, e.m ≤ s.1 ∧ |e.n| ≤ s.2 := by
  induction l with
  | nil => intro r; simp
  | cons e l ih =>
    intro r
    obtain ⟨h1, h2, h3⟩ := ih (max r.1 e.m, max r.2 |e.n|)
    simp only [List.foldl_cons, List.mem_cons] at *
    refine ⟨by omega, by omega, ?_⟩
    rintro e' (rfl | he)
    · constructor <;> omega
    · exact h3 e' he

/-- without given resolution the list itself determines the shape; only negative `m` can be out of range -/
theorem implicit_ok (l : List (Entry α)) (h : ∀ e ∈ l, 0 ≤ e.m) :
    ∃ d ntor, sparseToDenseImplicit l = .ok d ∧ 0 ≤ ntor ∧ 1 ≤ d.rows ∧ d.cols = 2 * ntor + 1 ∧
      ∀ m n, bdyCoeff d.rows ntor d m n = listed l m n := by
  have hf := fold_max l (0, 0)
  unfold sparseToDenseImplicit
  dsimp only at hf ⊢
  set s := l.foldl (fun (r : Int × Int) e => (max r.1 e.m, max r.2 |e.n|)) (0, 0) with hs
  obtain ⟨h1, h2, h3⟩ := hf
  obtain ⟨d, e, hsh, hv⟩ := C37_sparse_to_dense l (s.1 + 1) s.2 (by omega) h2 (fun e he =>
    ⟨⟨h e he, by have := (h3 e he).1; omega⟩, by have := abs_le.mp (h3 e he).2; omega,
      (abs_le.mp (h3 e he).2).2⟩)
  refine ⟨d, s.2, e, h2, by rw [hsh.1]; omega, hsh.2, fun m n => ?_⟩
  unfold bdyCoeff
  split
  · rename_i k
    exact hv m n k.1.1 (by rw [← hsh.1]; exact k.1.2) k.2.1 k.2.2
  · rename_i k
    rw [listed_none]
    rintro e' he' ⟨rfl, rfl⟩
    have a := (h3 e' he').1
    have b := abs_le.mp (h3 e' he').2
    exact k ⟨⟨h e' he', by rw [hsh.1]; omega⟩, by omega, b.2⟩

/-- The validated input field has the declared shape and, at every mode of that shape, the listed coefficient;
    negative `m` is rejected. -/
theorem C37_read_field (l : List (Entry α)) (mpol ntor : Int) (hm : 0 ≤ mpol) (hn : 0 ≤ ntor) :
    ((∀ e ∈ l, 0 ≤ e.m) → ∃ d, readField l mpol ntor = .ok d ∧ BdyShape mpol ntor d ∧
      ∀ m n, 0 ≤ m → m < mpol → -ntor ≤ n → n ≤ ntor → d.val m (n + ntor) = listed l m n) ∧
    ((∃ e ∈ l, e.m < 0) → ∃ msg, readField l mpol ntor = .status msg) := by
  constructor
  · intro h
    obtain ⟨d, nt, e, hnt, hr, hc, hv⟩ := implicit_ok l h
    unfold readField
    rw [e, Outcome.bind_ok]
    unfold pyField2d
    dsimp only
    split
    · rename_i hs
      refine ⟨d, rfl, hs, fun m n a b c c' => ?_⟩
      have : nt = ntor := by have := hs.2; omega
      subst this
      rw [← hv m n]
      unfold bdyCoeff
      rw [if_pos ⟨⟨a, by rw [hs.1]; exact b⟩, c, c'⟩]
    · obtain ⟨v, ev, hs, hb⟩ := C25_python_2d d nt (by omega) hnt hc mpol ntor hm hn
      refine ⟨v, ev, hs, fun m n a b c c' => ?_⟩
      have := hb m n b c c'
      rw [hv] at this
      rw [← this]
      unfold bdyCoeff
      rw [if_pos ⟨⟨a, b⟩, c, c'⟩]
  · rintro ⟨e, he, hneg⟩
    obtain ⟨msg, h⟩ := C37_rejects l
      ((l.foldl (fun (r : Int × Int) e => (max r.1 e.m, max r.2 |e.n|)) (0, 0)).1 + 1)
      (l.foldl (fun (r : Int × Int) e => (max r.1 e.m, max r.2 |e.n|)) (0, 0)).2
      ⟨e, he, fun hf => by have := hf.1.1; omega⟩
    refine ⟨msg, ?_⟩
    unfold readField sparseToDenseImplicit
    dsimp only
    rw [h]
    rfl

variable [DecidableEq α]

/-- the sparse form lists exactly the nonzero coefficients -/
theorem denseToSparse_ok (c : Mat α) (ntor : Int) (hc : c.cols = 2 * ntor + 1) :
    ∃ l, denseToSparse c = .ok l ∧
      ∀ e, e ∈ l ↔ (0 ≤ e.m ∧ e.m < c.rows) ∧ (-ntor ≤ e.n ∧ e.n ≤ ntor) ∧ e.value = c.val e.m (e.n + ntor)
        ∧ e.value ≠ 0 := by
  unfold denseToSparse
  rw [if_neg (by omega), if_neg (by omega)]
  have hd : (c.cols - 1) / 2 = ntor := by omega
  refine ⟨_, rfl, fun e => ?_⟩
  rw [hd]
  simp only [List.mem_flatMap, List.mem_filterMap, mem_irange]
  constructor
  · rintro ⟨m, hm, col, hcol, hx⟩
    split at hx
    · rename_i hv
      cases hx
      refine ⟨hm, by dsimp only; omega, by simp, hv⟩
    · cases hx
  · rintro ⟨hm, hn, hv, hne⟩
    refine ⟨e.m, hm, e.n + ntor, by omega, ?_⟩
    rw [if_pos (by rw [← hv]; exact hne)]
    cases e
    simp_all

theorem listed_of_dense (c : Mat α) (ntor : Int) (l : List (Entry α))
    (h : ∀ e, e ∈ l ↔ (0 ≤ e.m ∧ e.m < c.rows) ∧ (-ntor ≤ e.n ∧ e.n ≤ ntor) ∧ e.value = c.val e.m (e.n + ntor)
        ∧ e.value ≠ 0) (m n : Int) (a : 0 ≤ m) (b : m < c.rows) (a' : -ntor ≤ n) (b' : n ≤ ntor) :
    listed l m n = c.val m (n + ntor) := by
  by_cases hz : c.val m (n + ntor) = 0
  · rw [hz]
    apply listed_none
    rintro e he ⟨rfl, rfl⟩
    obtain ⟨_, _, h1, h2⟩ := (h e).mp he
    exact h2 (h1.trans hz)
  · apply listed_some
    · exact ⟨⟨m, n, c.val m (n + ntor)⟩, (h _).mpr ⟨⟨a, b⟩, ⟨a', b'⟩, rfl, hz⟩, rfl, rfl⟩
    · rintro e he ⟨rfl, rfl⟩
      exact ((h e).mp he).2.2.1

/-- Writing a boundary array and reading it back into an input of the same resolution gives the same array,
    also when whole rows or columns at the end vanish. -/
theorem C37_roundtrip (c : Mat α) (mpol ntor : Int) (hm : 0 ≤ mpol) (hn : 0 ≤ ntor)
    (hs : BdyShape mpol ntor c) :
    ∃ l d, denseToSparse c = .ok l ∧ readField l mpol ntor = .ok d ∧ Mat.Same c d := by
  obtain ⟨l, el, hl⟩ := denseToSparse_ok c ntor hs.2
  obtain ⟨d, ed, hd, hv⟩ := (C37_read_field l mpol ntor hm hn).1 (fun e he => ((hl e).mp he).1.1)
  refine ⟨l, d, el, ed, by rw [hs.1, hd.1], by rw [hs.2, hd.2], ?_⟩
  intro i j i0 i1 j0 j1
  rw [hs.1] at i1
  rw [hs.2] at j1
  have e1 := hv i (j - ntor) i0 i1 (by omega) (by omega)
  have e2 := listed_of_dense c ntor l hl i (j - ntor) i0 (by rw [hs.1]; exact i1) (by omega) (by omega)
  rw [sub_add_cancel] at e1 e2
  rw [e1, e2]

/-- The same with the explicit resolution. -/
theorem C37_roundtrip_explicit (c : Mat α) (mpol ntor : Int) (hm : 0 ≤ mpol) (hn : 0 ≤ ntor)
    (hs : BdyShape mpol ntor c) :
    ∃ l d, denseToSparse c = .ok l ∧ sparseToDense l mpol ntor = .ok d ∧ Mat.Same c d := by
  obtain ⟨l, el, hl⟩ := denseToSparse_ok c ntor hs.2
  obtain ⟨d, ed, hd, hv⟩ := C37_sparse_to_dense l mpol ntor hm hn (fun e he =>
    ⟨⟨((hl e).mp he).1.1, by rw [← hs.1]; exact ((hl e).mp he).1.2⟩, ((hl e).mp he).2.1⟩)
  refine ⟨l, d, el, ed, by rw [hs.1, hd.1], by rw [hs.2, hd.2], ?_⟩
  intro i j i0 i1 j0 j1
  rw [hs.1] at i1
  rw [hs.2] at j1
  have e1 := hv i (j - ntor) i0 i1 (by omega) (by omega)
  have e2 := listed_of_dense c ntor l hl i (j - ntor) i0 (by rw [hs.1]; exact i1) (by omega) (by omega)
  rw [sub_add_cancel] at e1 e2
  rw [e1, e2]

/-- F32: "never silently dropped" fails for an input file: the mode `m = 5` of an input with `mpol = 2` is dropped
    (a warning is logged), while the same list with the explicit resolution is rejected. -/
theorem C37_out_of_range_dropped :
    (∃ d, readField [⟨0, 0, 7⟩, ⟨5, 0, (3 : Int)⟩] 2 0 = .ok d ∧ d.val 0 0 = 7 ∧ d.val 1 0 = 0) ∧
    sparseToDense [⟨0, 0, 7⟩, ⟨5, 0, (3 : Int)⟩] 2 0
      = .status "Index out of bounds when parsing sparse coefficient array" :=
  ⟨⟨_, rfl, by decide +kernel, by decide +kernel⟩, rfl⟩

/-- an array with trailing zero columns and rows, and its sparse form -/
example : BdyShape 3 2 (⟨3, 5, fun m col => if m = 1 ∧ col = 1 then 4 else 0⟩ : Mat Int) ∧
    denseToSparse (⟨3, 5, fun m col => if m = 1 ∧ col = 1 then 4 else 0⟩ : Mat Int) = .ok [⟨1, -1, 4⟩] :=
  ⟨⟨rfl, rfl⟩, by decide +kernel⟩

/-! ## C50 -/

/-- specification: the inputs of a VMEC++ JSON file (`vmec_indata.cc`, `FromJson`) that VMEC2000 also has, with
    their names in the namelist -/
def scalarInputs : List String := ["lasym", "nfp", "mpol", "ntor", "ntheta", "nzeta", "delt", "tcon0", "lforbal",
  "nstep", "phiedge", "pmass_type", "pres_scale", "gamma", "spres_ped", "ncurr", "piota_type", "pcurr_type",
  "curtor", "bloat", "lfreeb", "mgrid_file", "nvacskip"]

def arrayInputs : List String := ["ns_array", "ftol_array", "niter_array", "aphi", "am", "am_aux_s", "am_aux_f",
  "ai", "ai_aux_s", "ai_aux_f", "ac", "ac_aux_s", "ac_aux_f", "extcur"]

def boundaryInputs : List String := ["rbc", "zbs", "rbs", "zbc"]

/-- axis inputs: JSON name and namelist name -/
def axisInputs : List (String × String) :=
  [("raxis_c", "raxis_cc"), ("zaxis_s", "zaxis_cs"), ("raxis_s", "raxis_cs"), ("zaxis_c", "zaxis_cc")]

/-- name assigned by a line -/
def Line.name {α : Type} : Line α → String
  | .assign n _ => n
  | .element n _ _ _ => n

/-- Every scalar, array and boundary input is carried over with its value. Missing for the full claim: the
    axis, see `C50_axis_lost`. -/
theorem C50_carried_partial (d : JDict α) :
    (∀ n ∈ scalarInputs, ∀ v, d n = some v → Line.assign n v ∈ jsonToIndata d) ∧
    (∀ n ∈ arrayInputs, ∀ l, l ≠ [] → d n = some (.nums l) → Line.assign n (.nums l) ∈ jsonToIndata d) ∧
    (∀ n ∈ arrayInputs, ∀ l, l ≠ [] → d n = some (.ints l) → Line.assign n (.ints l) ∈ jsonToIndata d) ∧
    (∀ n ∈ boundaryInputs, ∀ l, d n = some (.coeffs l) → ∀ e ∈ l,
      Line.element n e.n e.m e.value ∈ jsonToIndata d) := by
  refine ⟨?_, ?_, ?_, ?_⟩
  · intro n hn v hv
    have t : ∀ n ∈ scalarInputs, (Kind.scalar, n) ∈ calls := by decide
    exact List.mem_flatMap.mpr ⟨_, t n hn, by simp [callLines, scalarLine, hv]⟩
  · intro n hn l hl hv
    have t : ∀ n ∈ arrayInputs, (Kind.array, n) ∈ calls := by decide
    exact List.mem_flatMap.mpr ⟨_, t n hn, by simp [callLines, arrayLine, hv, List.length_pos_iff.mpr hl]⟩
  · intro n hn l hl hv
    have t : ∀ n ∈ arrayInputs, (Kind.array, n) ∈ calls := by decide
    exact List.mem_flatMap.mpr ⟨_, t n hn, by simp [callLines, arrayLine, hv, List.length_pos_iff.mpr hl]⟩
  · intro n hn l hv e he
    have t : ∀ n ∈ boundaryInputs, (Kind.coeffs, n) ∈ calls := by decide
    refine List.mem_flatMap.mpr ⟨_, t n hn, ?_⟩
    simp only [callLines, coeffLines, hv, List.mem_map]
    exact ⟨e, he, rfl⟩

/-- a line of the result stems from the key of the same name -/
def FromKey (d : JDict α) (x : Line α) : Prop :=
  match x with
  | .assign n v => d n = some v
  | .element n i j v => ∃ l, d n = some (.coeffs l) ∧ ⟨j, i, v⟩ ∈ l

omit [Zero α] [DecidableEq α] in
theorem scalarLine_from (n : String) (d : JDict α) (x : Line α) (h : x ∈ scalarLine n d) :
    x.name = n ∧ FromKey d x := by
  unfold scalarLine at h
  split at h
  · simp at h
  · rename_i v hv; simp at h; subst h; exact ⟨rfl, hv⟩

omit [Zero α] [DecidableEq α] in
theorem arrayLine_from (n : String) (d : JDict α) (x : Line α) (h : x ∈ arrayLine n d) :
    x.name = n ∧ FromKey d x := by
  unfold arrayLine at h
  split at h
  · rename_i v hv; split at h <;> simp at h; subst h; exact ⟨rfl, hv⟩
  · rename_i v hv; split at h <;> simp at h; subst h; exact ⟨rfl, hv⟩
  · simp at h

omit [Zero α] [DecidableEq α] in
theorem coeffLines_from (n : String) (d : JDict α) (x : Line α) (h : x ∈ coeffLines n d) :
    x.name = n ∧ FromKey d x := by
  unfold coeffLines at h
  split at h
  · rename_i l hl
    simp only [List.mem_map] at h
    obtain ⟨e, he, rfl⟩ := h
    exact ⟨rfl, l, hl, he⟩
  · simp at h

omit [Zero α] [DecidableEq α] in
theorem callLines_from (c : Kind × String) (d : JDict α) (x : Line α) (h : x ∈ callLines d c) :
    x.name = c.2 ∧ FromKey d x := by
  unfold callLines at h
  split at h
  · exact scalarLine_from _ d x h
  · exact arrayLine_from _ d x h
  · exact coeffLines_from _ d x h

omit [Zero α] [DecidableEq α] in
/-- Nothing is invented: every line stems from the JSON entry of the same name. -/
theorem C50_nothing_invented (d : JDict α) (x : Line α) (h : x ∈ jsonToIndata d) : FromKey d x := by
  obtain ⟨c, _, hc⟩ := List.mem_flatMap.mp h
  exact (callLines_from c d x hc).2

omit [Zero α] [DecidableEq α] in
/-- F20: a VMEC++ input has its axis under `raxis_c`, `zaxis_s`, `raxis_s`, `zaxis_c`. The conversion looks for the
    Fortran names, so for *every* VMEC++ input the namelist says nothing about the axis. -/
theorem C50_axis_lost (d : JDict α) (hd : ∀ p ∈ axisInputs, d p.2 = none) :
    ∀ x ∈ jsonToIndata d, ∀ p ∈ axisInputs, x.name ≠ p.1 ∧ x.name ≠ p.2 := by
  intro x h p hp
  obtain ⟨c, hc, hx⟩ := List.mem_flatMap.mp h
  have t : ∀ c ∈ calls, ∀ p ∈ axisInputs, c.2 ≠ p.1 := by decide
  refine ⟨?_, ?_⟩
  · rw [(callLines_from c d x hx).1]; exact t c hc p hp
  · intro e
    have hk := (callLines_from c d x hx).2
    have hn := hd p hp
    cases x with
    | assign n v => simp only [Line.name] at e; subst e; simp [FromKey, hn] at hk
    | element n i j v => simp only [Line.name] at e; subst e; simp [FromKey, hn] at hk

/-- a JSON input with an axis: the boundary and the resolution arrive, the axis does not -/
example : jsonToIndata (fun n => if n = "mpol" then some (.int 3) else if n = "raxis_c" then some (.nums [1, 2])
      else if n = "rbc" then some (.coeffs [⟨1, -2, (9 : Int)⟩]) else none)
    = [.assign "mpol" (.int 3), .element "rbc" (-2) 1 9] := by decide +kernel

end Verif.PyInput
