import Verif.OutputIo.Lemmas

/-!
# Loading a file of the present layout
-/
namespace Verif.OutputIo
open Verif Verif.Indata

/-- the arrays of the geometry: one row per mode of the input resolution -/
def geometryArrays : List String := ["rmnc", "zmns", "lmns_full", "lmns", "rmns", "zmnc", "lmnc_full", "lmnc"]

/-- the arrays of the magnetic field and the current density that `LoadInto` may transpose: one row per mode of the extended
    resolution -/
def fieldArrays : List String := [
  "gmnc", "bmnc", "bsubumnc", "bsubvmnc", "bsubsmns", "bsupumnc", "bsupvmnc", "currumnc", "currvmnc",
  "gmns", "bmns", "bsubumns", "bsubvmns", "bsubsmnc", "bsupumns", "bsupvmns", "currumns", "currvmns"]

/-- `mn` rows and `ns` columns, or an array that was not computed -/
def Sized (a : Mat D) (mn ns : Int) : Prop := (a.rows = mn ∧ a.cols = ns) ∨ (a.rows = 0 ∧ a.cols = 0)

/-- an object as `ComputeWOutFileContents` returns it (`output_quantities.cc:4595-5323`): `ns` surfaces, `mnmax` and `nyq` modes -/
structure Wout (o : Obj) (ns mnmax nyq : Int) (free : Bool) : Prop where
  typed : Typed wOutFileContents o
  ns_eq : o "ns" = .int ns
  mnmax_eq : o "mnmax" = .int mnmax
  nyq_eq : o "mnmax_nyq" = .int nyq
  free_eq : o "lfreeb" = .bool free
  surfaces : 2 ≤ ns
  geometry : ∀ x ∈ geometryArrays, ∃ a, o x = .matrix a ∧ Sized a mnmax ns
  fields : ∀ x ∈ fieldArrays, ∃ a, o x = .matrix a ∧ Sized a nyq ns

/-- an array with as many rows as there are surfaces is transposed -/
def turn (ns : Int) : Val → Val
  | .matrix a => .matrix (if a.rows = ns then transpose a else a)
  | v => v

/-- what a file written for `o` gives back -/
def got (o : Obj) (ns : Int) (free : Bool) : Obj := fun x =>
  if free = false ∧ x = "nextcur" then .int 0
  else if free = false ∧ x = "extcur" then .doubles []
  else if x ∈ geometryArrays ∨ x ∈ fieldArrays then turn ns (o x)
  else o x

/-- what a statement must be for `wout_sound` -/
def legit : Step → Bool
  | .member x k => (x, k) ∈ wOutFileContents ∧ x ∉ geometryArrays ∧ x ∉ fieldArrays ∧ x ≠ "nextcur" ∧ x ≠ "extcur"
  | .renamed x _ k => (x, k) ∈ wOutFileContents ∧ x ∉ geometryArrays ∧ x ∉ fieldArrays ∧ x ≠ "nextcur" ∧ x ≠ "extcur"
  | .orZeros _ _ => false
  | .turned x => x ∈ geometryArrays ∧ x ∈ names wOutFileContents ∧ x ≠ "nextcur" ∧ x ≠ "extcur"
  | .turnedPadded x size => ((x ∈ geometryArrays ∧ size = "mnmax") ∨ (x ∈ fieldArrays ∧ size = "mnmax_nyq")) ∧
      x ∈ names wOutFileContents ∧ x ≠ "nextcur" ∧ x ≠ "extcur"
  | .turnedIfThere x => x ∈ fieldArrays ∧ x ∈ names wOutFileContents ∧ x ≠ "nextcur" ∧ x ≠ "extcur"
  | _ => true

theorem wout_legit : ∀ s ∈ woutSteps, legit s = true := by decide +kernel

theorem wout_ordered : ordered [] woutSteps = true := by decide +kernel

theorem wout_targets : (∀ x ∈ woutSteps.flatMap targets, x ∈ names wOutFileContents) ∧
    ∀ x ∈ names wOutFileContents, x ∈ woutSteps.flatMap targets := by decide +kernel

theorem got_plain {o : Obj} {ns : Int} {free : Bool} {x : String} (h1 : x ∉ geometryArrays) (h2 : x ∉ fieldArrays) (h3 : x ≠ "nextcur")
    (h4 : x ≠ "extcur") : got o ns free x = o x := by
  simp [got, h1, h2, h3, h4]

theorem got_array {o : Obj} {ns : Int} {free : Bool} {x : String} (h1 : x ∈ geometryArrays ∨ x ∈ fieldArrays) (h3 : x ≠ "nextcur")
    (h4 : x ≠ "extcur") : got o ns free x = turn ns (o x) := by
  simp [got, h1, h3, h4]

theorem turned_array {a : Mat D} {mn ns p q : Int} (hs : 2 ≤ ns) (ha : Sized a mn ns) (hp : mn = p ∨ mn = q) :
    (if a.rows = ns ∧ (a.cols = p ∨ a.cols = q) then transpose a else a) = if a.rows = ns then transpose a else a := by
  rcases ha with ⟨h1, h2⟩ | ⟨h1, h2⟩
  · by_cases h : a.rows = ns
    · rw [if_pos h, if_pos]
      refine ⟨h, ?_⟩
      rcases hp with hp | hp
      · left; omega
      · right; omega
    · rw [if_neg h, if_neg fun h' => h h'.1]
  · rw [if_neg (by omega), if_neg (by omega)]

theorem padded_array {a : Mat D} {mn ns : Int} (hs : 2 ≤ ns) (ha : Sized a mn ns) :
    (if a.rows = ns - 1 ∧ a.cols = mn then padLeft a ns mn else if a.rows = ns ∧ a.cols = mn then transpose a else a) =
      if a.rows = ns then transpose a else a := by
  rcases ha with ⟨h1, h2⟩ | ⟨h1, h2⟩
  · rw [if_neg (by omega)]
    by_cases h : a.rows = ns
    · rw [if_pos h, if_pos ⟨h, by omega⟩]
    · rw [if_neg h, if_neg fun h' => h h'.1]
  · rw [if_neg (by omega), if_neg (by omega), if_neg (by omega)]

theorem wout_sound (stod : String → Outcome D) {o : Obj} {ns mnmax nyq : Int} {free : Bool} (w : Wout o ns mnmax nyq free)
    {f : String → Option Val} (hf : ∀ x ∈ names wOutFileContents, f x = some (o x)) (s : Step) (hs : legit s = true) :
    Sound stod f (got o ns free) s := by
  intro m hm
  have hmem : ∀ x k, (x, k) ∈ wOutFileContents → x ∈ names wOutFileContents := fun x k h => List.mem_map.2 ⟨(x, k), h, rfl⟩
  have e1 : ("ns" : String) ∉ geometryArrays ∧ "ns" ∉ fieldArrays ∧ "mnmax" ∉ geometryArrays ∧ "mnmax" ∉ fieldArrays ∧
      "mnmax_nyq" ∉ geometryArrays ∧ "mnmax_nyq" ∉ fieldArrays ∧ "lfreeb" ∉ geometryArrays ∧ "lfreeb" ∉ fieldArrays := by decide +kernel
  have g1 : got o ns free "ns" = .int ns := by rw [got_plain e1.1 e1.2.1 (by decide) (by decide), w.ns_eq]
  have g2 : got o ns free "mnmax" = .int mnmax := by rw [got_plain e1.2.2.1 e1.2.2.2.1 (by decide) (by decide), w.mnmax_eq]
  have g3 : got o ns free "mnmax_nyq" = .int nyq := by rw [got_plain e1.2.2.2.2.1 e1.2.2.2.2.2.1 (by decide) (by decide), w.nyq_eq]
  have g4 : got o ns free "lfreeb" = .bool free := by rw [got_plain e1.2.2.2.2.2.2.1 e1.2.2.2.2.2.2.2 (by decide) (by decide), w.free_eq]
  cases s with
  | member x k =>
    simp only [legit, decide_eq_true_eq] at hs
    obtain ⟨h0, h1, h2, h3, h4⟩ := hs
    have g := got_plain (o := o) (ns := ns) (free := free) h1 h2 h3 h4
    exact readMember_sound m (by rw [hf x (hmem x k h0), g]) (by rw [g]; exact w.typed _ h0)
  | renamed x old k =>
    simp only [legit, decide_eq_true_eq] at hs
    obtain ⟨h0, h1, h2, h3, h4⟩ := hs
    have g := got_plain (o := o) (ns := ns) (free := free) h1 h2 h3 h4
    simp only [exec]
    rw [if_pos (by rw [hf x (hmem x k h0)]; rfl)]
    exact readMember_sound m (by rw [hf x (hmem x k h0), g]) (by rw [g]; exact w.typed _ h0)
  | orZeros x ref => simp [legit] at hs
  | version =>
    have h0 : ("version_", Kind.double) ∈ wOutFileContents := by decide +kernel
    have h1 : ("version_" : String) ∉ geometryArrays ∧ "version_" ∉ fieldArrays := by decide +kernel
    have g := got_plain (o := o) (ns := ns) (free := free) h1.1 h1.2 (by decide) (by decide)
    simp only [exec]
    rw [if_pos (by rw [hf _ (hmem _ _ h0)]; rfl)]
    exact readMember_sound m (by rw [hf _ (hmem _ _ h0), g]) (by rw [g]; exact w.typed _ h0)
  | freeBoundary =>
    have hb : m "lfreeb" = .bool free := by rw [hm _ (List.mem_cons_self ..), g4]
    have h0 : ("nextcur", Kind.int) ∈ wOutFileContents ∧ ("extcur", Kind.doubles) ∈ wOutFileContents ∧ "nextcur" ∉ geometryArrays ∧
        "nextcur" ∉ fieldArrays ∧ "extcur" ∉ geometryArrays ∧ "extcur" ∉ fieldArrays := by decide +kernel
    obtain ⟨h1, h2, h3, h4, h5, h6⟩ := h0
    cases free with
    | true =>
      simp only [exec, hb]
      have ga : got o ns true "nextcur" = o "nextcur" := by simp [got, h3, h4]
      have gb : got o ns true "extcur" = o "extcur" := by simp [got, h5, h6]
      refine readMembers_sound _ m ?_ ?_ <;> intro p hp <;> simp only [List.mem_cons, List.not_mem_nil, or_false] at hp <;>
        rcases hp with rfl | rfl
      · rw [hf _ (hmem _ _ h1), ga]
      · rw [hf _ (hmem _ _ h2), gb]
      · rw [ga]; exact w.typed _ h1
      · rw [gb]; exact w.typed _ h2
    | false =>
      simp only [exec, hb]
      rw [show Val.doubles [] = got o ns false "extcur" by simp [got], put_eq_override _ _ _ _ rfl,
        show Val.int 0 = got o ns false "nextcur" by simp [got], put_eq_override _ _ _ _ rfl, override_append]
      rfl
  | halfGrid =>
    have h0 : ∀ p ∈ halfGridMembers, p ∈ wOutFileContents ∧ p.1 ∉ geometryArrays ∧ p.1 ∉ fieldArrays ∧ p.1 ≠ "nextcur" ∧
        p.1 ≠ "extcur" := by decide +kernel
    have h1 : ("iotas", Kind.doubles) ∈ wOutFileContents := by decide +kernel
    simp only [exec]
    rw [if_pos (by rw [hf _ (hmem _ _ h1)]; rfl)]
    refine readMembers_sound _ m ?_ ?_ <;> intro p hp <;> obtain ⟨a0, a1, a2, a3, a4⟩ := h0 p hp <;>
      rw [got_plain (o := o) (ns := ns) (free := free) a1 a2 a3 a4]
    · exact hf _ (hmem p.1 p.2 a0)
    · exact w.typed _ a0
  | turned x =>
    simp only [legit, decide_eq_true_eq] at hs
    obtain ⟨h0, h1, h3, h4⟩ := hs
    obtain ⟨a, ha, hz⟩ := w.geometry x h0
    simp only [exec]
    rw [readTurned_ok (by rw [hf x h1, ha]) ((hm _ (by simp [needs])).trans g1) ((hm _ (by simp [needs])).trans g2)
      ((hm _ (by simp [needs])).trans g3), turned_array w.surfaces hz (Or.inl rfl)]
    congr 1
    refine put_eq_override _ _ _ _ ?_
    rw [got_array (Or.inl h0) h3 h4, ha]
    rfl
  | turnedPadded x size =>
    simp only [legit, decide_eq_true_eq] at hs
    obtain ⟨h0, h1, h3, h4⟩ := hs
    rcases h0 with ⟨h0, rfl⟩ | ⟨h0, rfl⟩
    · obtain ⟨a, ha, hz⟩ := w.geometry x h0
      simp only [exec]
      rw [readTurnedPadded_ok (by rw [hf x h1, ha]) ((hm _ (by simp [needs])).trans g1) ((hm _ (by simp [needs])).trans g2),
        padded_array w.surfaces hz]
      congr 1
      refine put_eq_override _ _ _ _ ?_
      rw [got_array (Or.inl h0) h3 h4, ha]
      rfl
    · obtain ⟨a, ha, hz⟩ := w.fields x h0
      simp only [exec]
      rw [readTurnedPadded_ok (by rw [hf x h1, ha]) ((hm _ (by simp [needs])).trans g1) ((hm _ (by simp [needs])).trans g3),
        padded_array w.surfaces hz]
      congr 1
      refine put_eq_override _ _ _ _ ?_
      rw [got_array (Or.inr h0) h3 h4, ha]
      rfl
  | turnedIfThere x =>
    simp only [legit, decide_eq_true_eq] at hs
    obtain ⟨h0, h1, h3, h4⟩ := hs
    obtain ⟨a, ha, hz⟩ := w.fields x h0
    simp only [exec]
    rw [if_pos (by rw [hf x h1]; rfl), readTurned_ok (by rw [hf x h1, ha]) ((hm _ (by simp [needs])).trans g1)
      ((hm _ (by simp [needs])).trans g2) ((hm _ (by simp [needs])).trans g3), turned_array w.surfaces hz (Or.inr rfl)]
    congr 1
    refine put_eq_override _ _ _ _ ?_
    rw [got_array (Or.inr h0) h3 h4, ha]
    rfl

end Verif.OutputIo
