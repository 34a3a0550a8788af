import Verif.Makegrid.File
import Verif.Makegrid.Props
import Verif.Mgrid.Load
import Mathlib.Data.List.GetD

/-!
# C106: an mgrid file holds the response table
-/
namespace Verif.Makegrid
open Verif Verif.Coils Verif.Mgrid

/-! ## names -/

theorem pad3_inj {i j : ℕ} (h : pad3 i = pad3 j) : i = j := by
  have h' : (pad3 i).toList = (pad3 j).toList := by rw [h]
  unfold pad3 at h'
  rw [String.toList_ofList, String.toList_ofList] at h'
  have : ∀ k : ℕ, Nat.ofDigitChars 10 (List.replicate (3 - (Nat.toDigits 10 k).length) '0' ++ Nat.toDigits 10 k) 0 = k := by
    intro k
    rw [Nat.ofDigitChars_append, Nat.ofDigitChars_replicate_zero, mul_zero, Nat.ofDigitChars_ten_toDigits]
  rw [← this i, h', this j]

/-- names of tables are different for different prefixes of two letters and different circuits -/
theorem tableName_inj {p q : String} {i j : Int} (hp : p.length = 2) (hq : q.length = 2) (hi : 0 ≤ i) (hj : 0 ≤ j) (h : tableName p i = tableName q j) : p = q ∧ i = j := by
  have h' : (tableName p i).toList = (tableName q j).toList := by rw [h]
  unfold tableName at h'
  rw [String.toList_append, String.toList_append, String.toList_append, String.toList_append, List.append_assoc, List.append_assoc] at h'
  obtain ⟨e1, e2⟩ := List.append_inj h' (by rw [String.length_toList, String.length_toList, hp, hq])
  obtain ⟨_, e3⟩ := List.append_inj e2 rfl
  have := pad3_inj (String.toList_inj.1 e3)
  exact ⟨String.toList_inj.1 e1, by omega⟩

theorem tableName_third {p : String} (i : Int) (hp : p.length = 2) : (tableName p i).toList[2]? = some '_' := by
  unfold tableName
  rw [String.toList_append, String.toList_append, List.append_assoc, List.getElem?_append_right (by rw [String.length_toList, hp]), String.length_toList, hp]
  rfl

theorem head_third : ∀ p ∈ headVars.map (·.1), p.toList[2]? ≠ some '_' := by decide

/-! ## the calls of the library -/

theorem defDims_ok : ∀ (l : List (String × Int)) (f : Nc), (l.map (·.1)).Nodup → (∀ p ∈ l, f.dims p.1 = none ∧ 0 < p.2) →
    ∃ f', defDims l f = .ok f' ∧ f'.vars = f.vars ∧ (∀ p ∈ l, f'.dims p.1 = some p.2) ∧ ∀ x, x ∉ l.map (·.1) → f'.dims x = f.dims x
  | [], f, _, _ => ⟨f, rfl, rfl, by simp, fun _ _ => rfl⟩
  | p :: l, f, hn, h => by
    rw [List.map_cons, List.nodup_cons] at hn
    obtain ⟨h0, h1⟩ := h p (List.mem_cons_self ..)
    have e : defDim f p.1 p.2 = .ok { f with dims := fun n => if n = p.1 then some p.2 else f.dims n } := by
      unfold defDim
      rw [if_neg (by omega), if_neg (by omega), h0]
      rfl
    obtain ⟨f', e', hv, hd, hx⟩ := defDims_ok l { f with dims := fun n => if n = p.1 then some p.2 else f.dims n } hn.2 (fun q hq => by
      refine ⟨?_, (h q (List.mem_cons_of_mem _ hq)).2⟩
      dsimp only
      rw [if_neg (fun e => hn.1 (List.mem_map.2 ⟨q, hq, e⟩))]
      exact (h q (List.mem_cons_of_mem _ hq)).1)
    refine ⟨f', ?_, hv, fun q hq => ?_, fun x hxl => ?_⟩
    · show (defDim f p.1 p.2).bind (defDims l) = _
      rw [e]; exact e'
    · rcases List.mem_cons.1 hq with rfl | hq
      · rw [hx _ hn.1]; simp
      · exact hd q hq
    · rw [List.map_cons, List.mem_cons, not_or] at hxl
      rw [hx x hxl.2]; simp [hxl.1]

theorem defVars_ok : ∀ (l : List (String × NcType × List String)) (f : Nc), (l.map (·.1)).Nodup → (∀ p ∈ l, f.vars p.1 = none ∧ ∀ d ∈ p.2.2, f.dims d ≠ none) →
    ∃ f', defVars l f = .ok f' ∧ f'.dims = f.dims ∧ (∀ p ∈ l, f'.vars p.1 = some ⟨p.2.1, p.2.2, fun _ => .i 0⟩) ∧ ∀ x, x ∉ l.map (·.1) → f'.vars x = f.vars x
  | [], f, _, _ => ⟨f, rfl, rfl, by simp, fun _ _ => rfl⟩
  | p :: l, f, hn, h => by
    rw [List.map_cons, List.nodup_cons] at hn
    obtain ⟨h0, h1⟩ := h p (List.mem_cons_self ..)
    have e : defVar f p.1 p.2.1 p.2.2 = .ok { f with vars := fun n => if n = p.1 then some ⟨p.2.1, p.2.2, fun _ => .i 0⟩ else f.vars n } := by
      unfold defVar
      rw [if_neg]
      rintro (hc | ⟨d, hd, hc⟩)
      · rw [h0] at hc; simp at hc
      · exact h1 d hd hc
    obtain ⟨f', e', hv, hd, hx⟩ := defVars_ok l { f with vars := fun n => if n = p.1 then some ⟨p.2.1, p.2.2, fun _ => .i 0⟩ else f.vars n } hn.2 (fun q hq => by
      refine ⟨?_, (h q (List.mem_cons_of_mem _ hq)).2⟩
      dsimp only
      rw [if_neg (fun e => hn.1 (List.mem_map.2 ⟨q, hq, e⟩))]
      exact (h q (List.mem_cons_of_mem _ hq)).1)
    refine ⟨f', ?_, hv, fun q hq => ?_, fun x hxl => ?_⟩
    · show (defVar f p.1 p.2.1 p.2.2).bind (defVars l) = _
      rw [e]; exact e'
    · rcases List.mem_cons.1 hq with rfl | hq
      · rw [hx _ hn.1]; simp
      · exact hd q hq
    · rw [List.map_cons, List.mem_cons, not_or] at hxl
      rw [hx x hxl.2]; simp [hxl.1]

theorem putVars_ok : ∀ (l : List (String × Mem)) (f : Nc), (l.map (·.1)).Nodup → (∀ p ∈ l, ∃ v, f.vars p.1 = some v ∧ v.ty = p.2.ty ∧ f.count v.dims ≤ p.2.size) →
    ∃ f', putVars l f = .ok f' ∧ f'.dims = f.dims ∧ (∀ p ∈ l, ∀ v, f.vars p.1 = some v → f'.vars p.1 = some { v with data := p.2.val }) ∧
      ∀ x, x ∉ l.map (·.1) → f'.vars x = f.vars x
  | [], f, _, _ => ⟨f, rfl, rfl, by simp, fun _ _ => rfl⟩
  | p :: l, f, hn, h => by
    rw [List.map_cons, List.nodup_cons] at hn
    obtain ⟨v, h0, h1, h2⟩ := h p (List.mem_cons_self ..)
    have e : putVar f p.1 p.2 = .ok { f with vars := fun n => if n = p.1 then some { v with data := p.2.val } else f.vars n } := by
      unfold putVar
      rw [h0]
      dsimp only
      rw [if_neg (not_not.2 h1), if_neg (by omega)]
    have ne : ∀ q ∈ l, q.1 ≠ p.1 := fun q hq e => hn.1 (List.mem_map.2 ⟨q, hq, e⟩)
    obtain ⟨f', e', hv, hd, hx⟩ := putVars_ok l { f with vars := fun n => if n = p.1 then some { v with data := p.2.val } else f.vars n } hn.2 (fun q hq => by
      obtain ⟨w, k0, k1, k2⟩ := h q (List.mem_cons_of_mem _ hq)
      refine ⟨w, ?_, k1, k2⟩
      dsimp only
      rw [if_neg (ne q hq), k0])
    refine ⟨f', ?_, hv, fun q hq w hw => ?_, fun x hxl => ?_⟩
    · show (putVar f p.1 p.2).bind (putVars l) = _
      rw [e]; exact e'
    · rcases List.mem_cons.1 hq with rfl | hq
      · rw [hx _ hn.1]
        rw [h0] at hw
        injection hw with hw
        subst hw
        simp
      · exact hd q hq w (by dsimp only; rw [if_neg (ne q hq), hw])
    · rw [List.map_cons, List.mem_cons, not_or] at hxl
      rw [hx x hxl.2]; simp [hxl.1]

/-- reading beyond an array is undefined behaviour, whatever is written before it -/
theorem putVars_ub : ∀ (l : List (String × Mem)) (f : Nc), (l.map (·.1)).Nodup → (∀ p ∈ l, ∃ v, f.vars p.1 = some v ∧ v.ty = p.2.ty) →
    (∃ p ∈ l, ∃ v, f.vars p.1 = some v ∧ p.2.size < f.count v.dims) → ∃ w, putVars l f = .ub w
  | [], f, _, _, h => by obtain ⟨p, hp, _⟩ := h; simp at hp
  | p :: l, f, hn, ht, h => by
    rw [List.map_cons, List.nodup_cons] at hn
    obtain ⟨v, h0, h1⟩ := ht p (List.mem_cons_self ..)
    have ne : ∀ q ∈ l, q.1 ≠ p.1 := fun q hq e => hn.1 (List.mem_map.2 ⟨q, hq, e⟩)
    by_cases h2 : p.2.size < f.count v.dims
    · have e : putVar f p.1 p.2 = .ub "read beyond the array" := by
        unfold putVar
        rw [h0]
        dsimp only
        rw [if_neg (not_not.2 h1), if_pos h2]
      refine ⟨"read beyond the array", ?_⟩
      show (putVar f p.1 p.2).bind (putVars l) = _
      rw [e]; rfl
    · have e : putVar f p.1 p.2 = .ok { f with vars := fun n => if n = p.1 then some { v with data := p.2.val } else f.vars n } := by
        unfold putVar
        rw [h0]
        dsimp only
        rw [if_neg (not_not.2 h1), if_neg h2]
      obtain ⟨w, hw⟩ := putVars_ub l { f with vars := fun n => if n = p.1 then some { v with data := p.2.val } else f.vars n } hn.2 (fun q hq => by
        obtain ⟨u, k0, k1⟩ := ht q (List.mem_cons_of_mem _ hq)
        refine ⟨u, ?_, k1⟩
        dsimp only
        rw [if_neg (ne q hq), k0]) (by
        obtain ⟨q, hq, u, k0, k1⟩ := h
        rcases List.mem_cons.1 hq with rfl | hq
        · rw [h0] at k0; injection k0 with k0; subst k0; exact (h2 k1).elim
        · refine ⟨q, hq, u, ?_, k1⟩
          dsimp only
          rw [if_neg (ne q hq), k0])
      refine ⟨w, ?_⟩
      show (putVar f p.1 p.2).bind (putVars l) = _
      rw [e]; exact hw

/-! ## the file -/

/-- prefixes of the tables in the file -/
def prefixes (hasA : Bool) : List String := ["br", "bp", "bz"] ++ if hasA then ["ar", "ap", "az"] else []

theorem prefixes_two (hasA : Bool) : ∀ p ∈ prefixes hasA, p.length = 2 := by cases hasA <;> decide

theorem circuitVars_names (hasA : Bool) (i : Int) : (circuitVars hasA i).map (·.1) = (prefixes hasA).map (tableName · i) := by
  cases hasA <;> rfl

theorem circuitPuts_names (b : Comp → Mat ℝ) (a : Option (Comp → Mat ℝ)) (i : Int) : (circuitPuts b a i).map (·.1) = (prefixes a.isSome).map (tableName · i) := by
  cases a <;> rfl

theorem names_nodup (hasA : Bool) (n : Int) : (headVars.map (·.1) ++ (irange 0 n).flatMap fun i => (prefixes hasA).map (tableName · i)).Nodup := by
  rw [List.nodup_append']
  refine ⟨by decide, ?_, ?_⟩
  · rw [List.nodup_flatMap]
    refine ⟨fun i hi => ?_, ?_⟩
    · have hi0 : 0 ≤ i := (mem_irange.1 hi).1
      refine List.Nodup.map_on (fun p hp q hq e => (tableName_inj (prefixes_two _ p hp) (prefixes_two _ q hq) hi0 hi0 e).1) ?_
      cases hasA <;> decide
    · refine List.Nodup.pairwise_of_forall_ne (irange_nodup 0 n) fun i hi j hj hij => ?_
      intro x hx hy
      obtain ⟨p, hp, rfl⟩ := List.mem_map.1 hx
      obtain ⟨q, hq, e⟩ := List.mem_map.1 hy
      exact hij (tableName_inj (prefixes_two _ q hq) (prefixes_two _ p hp) (mem_irange.1 hj).1 (mem_irange.1 hi).1 e).2.symm
  · intro x hx hy
    obtain ⟨i, _, hm⟩ := List.mem_flatMap.1 hy
    obtain ⟨p, hp, rfl⟩ := List.mem_map.1 hm
    exact head_third _ hx (tableName_third i (prefixes_two _ p hp))

/-- number of grid points -/
def points (par : Params) : Int := par.number_of_phi_grid_points * par.number_of_z_grid_points * par.number_of_r_grid_points

/-- after the definitions -/
theorem defined_ok (par : Params) (n : Int) (hn : 0 < n) (hr : 0 < par.number_of_r_grid_points) (hz : 0 < par.number_of_z_grid_points) (hp : 0 < par.number_of_phi_grid_points) (hasA : Bool) :
    ∃ f0 f, defDims (fileDims par n) emptyNc = .ok f0 ∧ defVars (headVars ++ (irange 0 n).flatMap (circuitVars hasA)) f0 = .ok f ∧
      (∀ d ∈ fileDims par n, f.dims d.1 = some d.2) ∧ (∀ q ∈ headVars ++ (irange 0 n).flatMap (circuitVars hasA), f.vars q.1 = some ⟨q.2.1, q.2.2, fun _ => .i 0⟩) := by
  obtain ⟨f0, e0, v0, d0, _⟩ := defDims_ok (fileDims par n) emptyNc (by
    have : (fileDims par n).map (·.1) = ["stringsize", "external_coil_groups", "dim_00001", "external_coils", "rad", "zee", "phi"] := rfl
    rw [this]; decide) (by
    intro p hp'
    refine ⟨rfl, ?_⟩
    simp only [fileDims, List.mem_cons, List.not_mem_nil, or_false] at hp'
    rcases hp' with rfl | rfl | rfl | rfl | rfl | rfl | rfl <;> dsimp only <;> omega)
  have some_dim : ∀ d ∈ (fileDims par n).map (·.1), f0.dims d ≠ none := by
    intro d hd
    obtain ⟨p, hp', rfl⟩ := List.mem_map.1 hd
    rw [d0 p hp']; simp
  obtain ⟨f, e1, d1, v1, _⟩ := defVars_ok (headVars ++ (irange 0 n).flatMap (circuitVars hasA)) f0 (by
      rw [List.map_append, List.map_flatMap]
      simp only [circuitVars_names]
      exact names_nodup hasA n) (by
    intro q hq
    refine ⟨by rw [v0]; rfl, fun d hd => some_dim d ?_⟩
    rcases List.mem_append.1 hq with hq | hq
    · have all : ∀ q ∈ headVars, ∀ d ∈ q.2.2, d ∈ ["stringsize", "external_coil_groups", "dim_00001", "external_coils", "rad", "zee", "phi"] := by decide
      have : (fileDims par n).map (·.1) = ["stringsize", "external_coil_groups", "dim_00001", "external_coils", "rad", "zee", "phi"] := rfl
      rw [this]
      exact all q hq d hd
    · obtain ⟨i, _, hi⟩ := List.mem_flatMap.1 hq
      have hg : q.2.2 = ["phi", "zee", "rad"] := by
        cases hasA <;> simp only [circuitVars, Bool.false_eq_true, if_false, if_true, List.append_nil, List.cons_append, List.nil_append, List.mem_cons, List.not_mem_nil, or_false] at hi
        · rcases hi with rfl | rfl | rfl <;> rfl
        · rcases hi with rfl | rfl | rfl | rfl | rfl | rfl <;> rfl
      rw [hg] at hd
      simp only [List.mem_cons, List.not_mem_nil, or_false] at hd
      rcases hd with rfl | rfl | rfl <;> simp [fileDims])
  exact ⟨f0, f, e0, e1, fun d hd => by rw [d1]; exact d0 d hd, v1⟩

/-- table of a prefix -/
def tableOf (b : Comp → Mat ℝ) (a : Option (Comp → Mat ℝ)) (p : String) : Mat ℝ :=
  if p = "br" then b .r else if p = "bp" then b .p else if p = "bz" then b .z
  else match a with
    | some a => if p = "ar" then a .r else if p = "ap" then a .p else a .z
    | none => b .r

theorem circuitPuts_eq (b : Comp → Mat ℝ) (a : Option (Comp → Mat ℝ)) (i : Int) :
    circuitPuts b a i = (prefixes a.isSome).map fun p => (tableName p i, memRow (tableOf b a p) i) := by
  cases a <;> rfl

theorem circuitVars_eq (hasA : Bool) (i : Int) : circuitVars hasA i = (prefixes hasA).map fun p => (tableName p i, .double, ["phi", "zee", "rad"]) := by
  cases hasA <;> rfl

theorem groupName_length (i : Int) (hb : i < 2 ^ 31) : (groupName i).length = 30 := by
  have h2 : (Nat.toDigits 10 i.toNat).length ≤ 10 := by
    rw [Nat.length_toDigits_le_iff (by omega) (by omega)]
    have : (10 : ℕ) ^ 10 = 10000000000 := by norm_num
    rw [this]
    have : (2 : ℤ) ^ 31 = 2147483648 := by norm_num
    rw [this] at hb
    omega
  unfold groupName
  generalize Nat.toDigits 10 i.toNat = l at h2
  have e : "circuit_".toList.length = 8 := by decide
  generalize "circuit_".toList = c at e
  rw [List.length_append, List.length_replicate, List.length_append, e]
  omega

theorem groups_length (n : Int) (hb : n ≤ 2 ^ 31) : ((irange 0 n).flatMap groupName).length = n.toNat * 30 := by
  have one : (irange 0 n).map (fun i => (groupName i).length) = (irange 0 n).map fun _ => 30 :=
    List.map_congr_left fun i hi => groupName_length i (lt_of_lt_of_le (mem_irange.1 hi).2 hb)
  rw [List.length_flatMap, one]
  simp [irange_length]

/-- the tables fit the grid: one row for each circuit, one column for each grid point -/
def Fit (par : Params) (n : Int) (t : Mat ℝ) : Prop := t.rows = n ∧ t.cols = points par
/-- the tables are large enough -/
def Large (par : Params) (n : Int) (t : Mat ℝ) : Prop := t.rows = n ∧ points par ≤ t.cols
theorem Fit.large {par : Params} {n : Int} {t : Mat ℝ} (h : Fit par n t) : Large par n t := ⟨h.1, h.2.ge⟩

theorem contents_aux (par : Params) (n : Int) (hn : 0 < n) (hb : n ≤ 2 ^ 31) (hr : 0 < par.number_of_r_grid_points) (hz : 0 < par.number_of_z_grid_points) (hp : 0 < par.number_of_phi_grid_points)
    (cur : Vec ℝ) (hcur : cur.size = n) (b : Comp → Mat ℝ) (a : Option (Comp → Mat ℝ)) (hfb : ∀ c, Large par n (b c)) (hfa : ∀ t, a = some t → ∀ c, Large par n (t c)) :
    ∃ f, writeFile par cur b a = .ok f ∧ f.dims "rad" = some par.number_of_r_grid_points ∧ f.dims "zee" = some par.number_of_z_grid_points ∧ f.dims "phi" = some par.number_of_phi_grid_points ∧
      f.dims "dim_00001" = some 1 ∧
      (∀ q ∈ headPuts par n cur, ∃ v, f.vars q.1 = some v ∧ (∃ d, (q.1, v.ty, d) ∈ headVars ∧ v.dims = d) ∧ v.data = q.2.val) ∧
      ∀ p ∈ prefixes a.isSome, ∀ i, 0 ≤ i → i < n → ∃ v, f.vars (tableName p i) = some v ∧ v.ty = .double ∧ v.dims = ["phi", "zee", "rad"] ∧
        ∀ k, 0 ≤ k → k < points par → v.data k = .d ((tableOf b a p).val i k) := by
  obtain ⟨f0, f1, e0, e1, hd, hv⟩ := defined_ok par n hn hr hz hp a.isSome
  have dim : ∀ d ∈ fileDims par n, f1.dims d.1 = some d.2 := hd
  have drad : f1.dims "rad" = some par.number_of_r_grid_points := dim ("rad", _) (by simp [fileDims])
  have dzee : f1.dims "zee" = some par.number_of_z_grid_points := dim ("zee", _) (by simp [fileDims])
  have dphi : f1.dims "phi" = some par.number_of_phi_grid_points := dim ("phi", _) (by simp [fileDims])
  have done : f1.dims "dim_00001" = some 1 := dim ("dim_00001", _) (by simp [fileDims])
  have dgrp : f1.dims "external_coil_groups" = some n := dim ("external_coil_groups", _) (by simp [fileDims])
  have dcoi : f1.dims "external_coils" = some n := dim ("external_coils", _) (by simp [fileDims])
  have dstr : f1.dims "stringsize" = some 30 := dim ("stringsize", _) (by simp [fileDims])
  have hgrid : f1.count ["phi", "zee", "rad"] = points par := by
    simp only [Nc.count, List.map_cons, List.map_nil, List.prod_cons, List.prod_nil, dphi, dzee, drad, Option.getD_some, points]; ring
  have hpos : 0 < points par := by unfold points; positivity
  have hfit : ∀ p ∈ prefixes a.isSome, Large par n (tableOf b a p) := by
    intro p hp'
    cases ha : a with
    | none =>
      unfold tableOf
      split_ifs <;> exact hfb _
    | some t =>
      unfold tableOf
      dsimp only
      split_ifs
      · exact hfb _
      · exact hfb _
      · exact hfb _
      · exact hfa t ha _
      · exact hfa t ha _
      · exact hfa t ha _
  have hheadv : ∀ q ∈ headVars, f1.vars q.1 = some ⟨q.2.1, q.2.2, fun _ => .i 0⟩ := fun q hq => hv q (List.mem_append_left _ hq)
  have htabv : ∀ p ∈ prefixes a.isSome, ∀ i, 0 ≤ i → i < n → f1.vars (tableName p i) = some ⟨.double, ["phi", "zee", "rad"], fun _ => .i 0⟩ := by
    intro p hp' i h0 h1
    refine hv (tableName p i, .double, ["phi", "zee", "rad"]) (List.mem_append_right _ (List.mem_flatMap.2 ⟨i, mem_irange.2 ⟨h0, h1⟩, ?_⟩))
    rw [circuitVars_eq]
    exact List.mem_map.2 ⟨p, hp', rfl⟩
  have hnames : ((headPuts par n cur ++ (irange 0 n).flatMap (circuitPuts b a)).map (·.1)).Nodup := by
    rw [List.map_append, List.map_flatMap]
    simp only [circuitPuts_names]
    exact names_nodup a.isSome n
  have headty : ∀ q ∈ headPuts par n cur, ∃ v, f1.vars q.1 = some v ∧ v.ty = q.2.ty ∧ f1.count v.dims ≤ q.2.size ∧ ∃ d, (q.1, v.ty, d) ∈ headVars ∧ v.dims = d := by
    intro q hq
    simp only [headPuts, List.mem_cons, List.not_mem_nil, or_false] at hq
    rcases hq with rfl | rfl | rfl | rfl | rfl | rfl | rfl | rfl | rfl | rfl | rfl | rfl
    · exact ⟨_, hheadv ("ir", .int, []) (by simp [headVars]), rfl, le_refl 1, _, by simp [headVars], rfl⟩
    · exact ⟨_, hheadv ("jz", .int, []) (by simp [headVars]), rfl, le_refl 1, _, by simp [headVars], rfl⟩
    · exact ⟨_, hheadv ("kp", .int, []) (by simp [headVars]), rfl, le_refl 1, _, by simp [headVars], rfl⟩
    · exact ⟨_, hheadv ("nfp", .int, []) (by simp [headVars]), rfl, le_refl 1, _, by simp [headVars], rfl⟩
    · exact ⟨_, hheadv ("nextcur", .int, []) (by simp [headVars]), rfl, le_refl 1, _, by simp [headVars], rfl⟩
    · exact ⟨_, hheadv ("rmin", .double, []) (by simp [headVars]), rfl, le_refl 1, _, by simp [headVars], rfl⟩
    · exact ⟨_, hheadv ("rmax", .double, []) (by simp [headVars]), rfl, le_refl 1, _, by simp [headVars], rfl⟩
    · exact ⟨_, hheadv ("zmin", .double, []) (by simp [headVars]), rfl, le_refl 1, _, by simp [headVars], rfl⟩
    · exact ⟨_, hheadv ("zmax", .double, []) (by simp [headVars]), rfl, le_refl 1, _, by simp [headVars], rfl⟩
    · refine ⟨_, hheadv ("coil_group", .char, ["external_coil_groups", "stringsize"]) (by simp [headVars]), rfl, ?_, _, by simp [headVars], rfl⟩
      simp only [Nc.count, List.map_cons, List.map_nil, List.prod_cons, List.prod_nil, dgrp, dstr, Option.getD_some, memString]
      rw [groups_length n hb]
      push_cast
      omega
    · refine ⟨_, hheadv ("mgrid_mode", .char, ["dim_00001"]) (by simp [headVars]), rfl, ?_, _, by simp [headVars], rfl⟩
      simp only [Nc.count, List.map_cons, List.map_nil, List.prod_cons, List.prod_nil, done, Option.getD_some, memChar]; omega
    · refine ⟨_, hheadv ("raw_coil_cur", .double, ["external_coils"]) (by simp [headVars]), rfl, ?_, _, by simp [headVars], rfl⟩
      simp only [Nc.count, List.map_cons, List.map_nil, List.prod_cons, List.prod_nil, dcoi, Option.getD_some, memVec]; omega
  obtain ⟨f, e2, d2, hput, _⟩ := putVars_ok (headPuts par n cur ++ (irange 0 n).flatMap (circuitPuts b a)) f1 hnames (by
    intro q hq
    rcases List.mem_append.1 hq with hq | hq
    · obtain ⟨v, h1, h2, h3, _⟩ := headty q hq
      exact ⟨v, h1, h2, h3⟩
    · obtain ⟨i, hi, hm⟩ := List.mem_flatMap.1 hq
      rw [circuitPuts_eq] at hm
      obtain ⟨p, hp', rfl⟩ := List.mem_map.1 hm
      obtain ⟨h0, h1⟩ := mem_irange.1 hi
      refine ⟨_, htabv p hp' i h0 h1, rfl, ?_⟩
      rw [hgrid]
      show points par ≤ ((tableOf b a p).rows - i) * (tableOf b a p).cols
      rw [(hfit p hp').1]
      have := (hfit p hp').2
      nlinarith)
  refine ⟨f, ?_, by rw [d2, drad], by rw [d2, dzee], by rw [d2, dphi], by rw [d2, done], ?_, ?_⟩
  · unfold writeFile
    dsimp only
    rw [(hfb .r).1, if_neg (by omega), if_neg (not_not.2 hcur), e0]
    show (defVars _ f0).bind _ = _
    rw [e1]
    exact e2
  · intro q hq
    obtain ⟨v, h1, _, _, h4⟩ := headty q hq
    exact ⟨_, hput q (List.mem_append_left _ hq) v h1, h4, rfl⟩
  · intro p hp' i h0 h1
    have hm : (tableName p i, memRow (tableOf b a p) i) ∈ headPuts par n cur ++ (irange 0 n).flatMap (circuitPuts b a) := by
      refine List.mem_append_right _ (List.mem_flatMap.2 ⟨i, mem_irange.2 ⟨h0, h1⟩, ?_⟩)
      rw [circuitPuts_eq]
      exact List.mem_map.2 ⟨p, hp', rfl⟩
    refine ⟨_, hput _ hm _ (htabv p hp' i h0 h1), rfl, rfl, fun k k0 k1 => ?_⟩
    show Cell.d ((tableOf b a p).val (i + k.tdiv (tableOf b a p).cols) (k.tmod (tableOf b a p).cols)) = _
    rw [Int.tdiv_eq_zero_of_lt k0 (lt_of_lt_of_le k1 (hfit p hp').2), Int.tmod_eq_of_lt k0 (lt_of_lt_of_le k1 (hfit p hp').2), add_zero]

/-! ## what a file should contain -/

/-- a single number -/
def HasInt (f : Nc) (name : String) (n : Int) : Prop := ∃ v, f.vars name = some v ∧ v.ty = .int ∧ v.dims = [] ∧ v.data 0 = .i n
def HasDouble (f : Nc) (name : String) (x : ℝ) : Prop := ∃ v, f.vars name = some v ∧ v.ty = .double ∧ v.dims = [] ∧ v.data 0 = .d x
/-- the response at all grid points in the order `(φ, Z, R)` -/
def HasTable (par : Params) (f : Nc) (name : String) (x : Int → ℝ) : Prop :=
  ∃ v, f.vars name = some v ∧ v.ty = .double ∧ v.dims = ["phi", "zee", "rad"] ∧ ∀ ip iz ir, OnGrid par ip iz ir → v.data (flat par ip iz ir) = .d (x (flat par ip iz ir))

/-- the file of a response table -/
structure Contains (par : Params) (n : Int) (cur : Vec ℝ) (b : Comp → Mat ℝ) (a : Option (Comp → Mat ℝ)) (f : Nc) : Prop where
  rad : f.dims "rad" = some par.number_of_r_grid_points
  zee : f.dims "zee" = some par.number_of_z_grid_points
  phi : f.dims "phi" = some par.number_of_phi_grid_points
  one : f.dims "dim_00001" = some 1
  ir : HasInt f "ir" par.number_of_r_grid_points
  jz : HasInt f "jz" par.number_of_z_grid_points
  kp : HasInt f "kp" par.number_of_phi_grid_points
  nfp : HasInt f "nfp" par.number_of_field_periods
  nextcur : HasInt f "nextcur" n
  rmin : HasDouble f "rmin" par.r_grid_minimum
  rmax : HasDouble f "rmax" par.r_grid_maximum
  zmin : HasDouble f "zmin" par.z_grid_minimum
  zmax : HasDouble f "zmax" par.z_grid_maximum
  /-- `'S'` for tables per unit of current, `'R'` otherwise -/
  mode : ∃ v, f.vars "mgrid_mode" = some v ∧ v.ty = .char ∧ v.dims = ["dim_00001"] ∧ v.data 0 = .c (if par.normalize_by_currents then 'S' else 'R')
  /-- one current for each circuit -/
  currents : ∃ v, f.vars "raw_coil_cur" = some v ∧ v.ty = .double ∧ ∀ i, 0 ≤ i → i < n → v.data i = .d (cur.val i)
  /-- names of the circuits in columns of 30 characters: `circuit_<index>` and blanks -/
  groups : ∃ v, f.vars "coil_group" = some v ∧ v.ty = .char ∧ ∀ i k : ℕ, i < n → k < 30 →
    v.data (30 * i + k : ℕ) = .c (("circuit_".toList ++ Nat.toDigits 10 i).getD k ' ')
  /-- the three components of the field of each circuit, numbered from 1 -/
  field : ∀ c i, 0 ≤ i → i < n → HasTable par f (tableName (bName c) i) ((b c).val i)
  /-- and those of the vector potential -/
  potential : ∀ t, a = some t → ∀ c i, 0 ≤ i → i < n → HasTable par f (tableName (aName c) i) ((t c).val i)

example : tableName (bName .r) 0 = "br_001" ∧ tableName (aName .p) 41 = "ap_042" ∧ tableName (bName .z) 1233 = "bz_1234" := by decide +kernel

theorem flatMap_getD {α β : Type} (g : α → List β) (L : ℕ) (d : β) : ∀ (l : List α) (_ : ∀ x ∈ l, (g x).length = L) (i k : ℕ) (hi : i < l.length), k < L →
    (l.flatMap g).getD (L * i + k) d = (g l[i]).getD k d
  | [], _, i, k, hi, _ => by simp at hi
  | x :: l, h, i, k, hi, hk => by
    have hx := h x (List.mem_cons_self ..)
    rw [List.flatMap_cons]
    cases i with
    | zero =>
      rw [Nat.mul_zero, Nat.zero_add, List.getD_append _ _ _ _ (by omega)]
      rfl
    | succ i =>
      rw [List.getD_append_right _ _ _ _ (by rw [hx, Nat.mul_succ]; omega)]
      have := flatMap_getD g L d l (fun y hy => h y (List.mem_cons_of_mem _ hy)) i k (by simpa using hi) hk
      rw [hx, show L * (i + 1) + k - L = L * i + k by rw [Nat.mul_succ]; omega, this]
      rfl

theorem flat_bounds {par : Params} {ip iz ir : Int} (h : OnGrid par ip iz ir) : 0 ≤ flat par ip iz ir ∧ flat par ip iz ir < points par := by
  obtain ⟨h0, h1⟩ := lin_bounds ⟨h.p0, h.p1⟩ ⟨h.z0, h.z1⟩ ⟨h.r0, h.r1⟩
  have : flat par ip iz ir = (ip * par.number_of_z_grid_points + iz) * par.number_of_r_grid_points + ir := by unfold flat; ring
  rw [this]
  exact ⟨h0, h1⟩

theorem contents_large (par : Params) (n : Int) (hn : 0 < n) (hb : n ≤ 2 ^ 31) (hr : 0 < par.number_of_r_grid_points) (hz : 0 < par.number_of_z_grid_points) (hp : 0 < par.number_of_phi_grid_points)
    (cur : Vec ℝ) (hcur : cur.size = n) (b : Comp → Mat ℝ) (a : Option (Comp → Mat ℝ)) (hfb : ∀ c, Large par n (b c)) (hfa : ∀ t, a = some t → ∀ c, Large par n (t c)) :
    ∃ f, writeFile par cur b a = .ok f ∧ Contains par n cur b a f := by
  obtain ⟨f, hw, d1, d2, d3, d4, hh, ht⟩ := contents_aux par n hn hb hr hz hp cur hcur b a hfb hfa
  have uniq : ∀ x y : String × NcType × List String, x ∈ headVars → y ∈ headVars → x.1 = y.1 → x = y := by
    intro x y hx hy e
    exact List.inj_on_of_nodup_map (f := fun q : String × NcType × List String => q.1) (by decide) hx hy e
  have int : ∀ name k, (name, memInt k) ∈ headPuts par n cur → (name, .int, []) ∈ headVars → HasInt f name k := by
    intro name k h1 h2
    obtain ⟨v, e, ⟨d, hd, ed⟩, ev⟩ := hh _ h1
    have := uniq _ _ hd h2 rfl
    simp only [Prod.mk.injEq, true_and] at this
    exact ⟨v, e, this.1, by rw [ed, this.2], by rw [ev]; rfl⟩
  have dbl : ∀ name k, (name, memDouble k) ∈ headPuts par n cur → (name, .double, []) ∈ headVars → HasDouble f name k := by
    intro name k h1 h2
    obtain ⟨v, e, ⟨d, hd, ed⟩, ev⟩ := hh _ h1
    have := uniq _ _ hd h2 rfl
    simp only [Prod.mk.injEq, true_and] at this
    exact ⟨v, e, this.1, by rw [ed, this.2], by rw [ev]; rfl⟩
  have table : ∀ p ∈ prefixes a.isSome, ∀ i, 0 ≤ i → i < n → HasTable par f (tableName p i) ((tableOf b a p).val i) := by
    intro p hp i h0 h1
    obtain ⟨v, e, e1, e2, e3⟩ := ht p hp i h0 h1
    exact ⟨v, e, e1, e2, fun ip iz ir h => e3 _ (flat_bounds h).1 (flat_bounds h).2⟩
  refine ⟨f, hw, d1, d2, d3, d4, ?_, ?_, ?_, ?_, ?_, ?_, ?_, ?_, ?_, ?_, ?_, ?_, ?_, ?_⟩
  · exact int _ _ (by simp [headPuts]) (by simp [headVars])
  · exact int _ _ (by simp [headPuts]) (by simp [headVars])
  · exact int _ _ (by simp [headPuts]) (by simp [headVars])
  · exact int _ _ (by simp [headPuts]) (by simp [headVars])
  · exact int _ _ (by simp [headPuts]) (by simp [headVars])
  · exact dbl _ _ (by simp [headPuts]) (by simp [headVars])
  · exact dbl _ _ (by simp [headPuts]) (by simp [headVars])
  · exact dbl _ _ (by simp [headPuts]) (by simp [headVars])
  · exact dbl _ _ (by simp [headPuts]) (by simp [headVars])
  · obtain ⟨v, e, ⟨d, hd, ed⟩, ev⟩ := hh ("mgrid_mode", memChar (if par.normalize_by_currents then 'S' else 'R')) (by simp only [headPuts, List.mem_cons, true_or, or_true])
    have := uniq _ _ hd (show ("mgrid_mode", NcType.char, ["dim_00001"]) ∈ headVars by simp [headVars]) rfl
    simp only [Prod.mk.injEq, true_and] at this
    exact ⟨v, e, this.1, by rw [ed, this.2], by rw [ev]; rfl⟩
  · obtain ⟨v, e, ⟨d, hd, ed⟩, ev⟩ := hh ("raw_coil_cur", memVec cur) (by simp only [headPuts, List.mem_cons, true_or, or_true])
    have := uniq _ _ hd (show ("raw_coil_cur", NcType.double, ["external_coils"]) ∈ headVars by simp [headVars]) rfl
    simp only [Prod.mk.injEq, true_and] at this
    exact ⟨v, e, this.1, fun i _ _ => by rw [ev]; rfl⟩
  · obtain ⟨v, e, ⟨d, hd, ed⟩, ev⟩ := hh ("coil_group", memString ((irange 0 n).flatMap groupName)) (by simp only [headPuts, List.mem_cons, true_or, or_true])
    have := uniq _ _ hd (show ("coil_group", NcType.char, ["external_coil_groups", "stringsize"]) ∈ headVars by simp [headVars]) rfl
    simp only [Prod.mk.injEq, true_and] at this
    refine ⟨v, e, this.1, fun i k hi hk => ?_⟩
    rw [ev]
    have hl : i < (irange 0 n).length := by rw [irange_length]; omega
    have hel : (irange 0 n)[i] = (i : Int) := by simp [irange]
    have key := flatMap_getD groupName 30 '\x00' (irange 0 n) (fun x hx => groupName_length x (lt_of_lt_of_le (mem_irange.1 hx).2 hb)) i k hl hk
    show Cell.c (((irange 0 n).flatMap groupName).getD ((30 * i + k : ℕ) : Int).toNat '\x00') = _
    rw [Int.toNat_natCast, key, hel]
    congr 1
    have gl := groupName_length i (lt_of_lt_of_le hi hb)
    unfold groupName at gl ⊢
    rw [Int.toNat_natCast] at gl ⊢
    dsimp only at gl ⊢
    generalize "circuit_".toList ++ Nat.toDigits 10 i = l at gl ⊢
    rw [List.length_append, List.length_replicate] at gl
    by_cases hk' : k < l.length
    · rw [List.getD_append _ _ _ _ hk', List.getD_eq_getElem _ _ hk', List.getD_eq_getElem _ _ hk']
    · rw [List.getD_append_right _ _ _ _ (by omega), List.getD_eq_getElem _ _ (by rw [List.length_replicate]; omega), List.getElem_replicate, List.getD_eq_default _ _ (by omega)]
  · intro c i h0 h1
    have := table (bName c) (by unfold prefixes; cases c <;> simp [bName]) i h0 h1
    have e : tableOf b a (bName c) = b c := by cases c <;> rfl
    rwa [e] at this
  · intro t hat c i h0 h1
    have := table (aName c) (by rw [hat]; unfold prefixes; cases c <;> simp [aName]) i h0 h1
    have e : tableOf b a (aName c) = t c := by rw [hat]; cases c <;> rfl
    rwa [e] at this

/-- **C106** (contents): with at least one circuit, one current for each circuit, tables that fit the grid and a grid that is not empty, the file is written and contains the sizes, the extents, the mode, the
    names, the currents and, for every circuit and every component of the field (and of the vector potential, if given), the row of the response table in the order of the grid. -/
theorem C106_contents (par : Params) (n : Int) (hn : 0 < n) (hb : n ≤ 2 ^ 31) (hr : 0 < par.number_of_r_grid_points) (hz : 0 < par.number_of_z_grid_points) (hp : 0 < par.number_of_phi_grid_points)
    (cur : Vec ℝ) (hcur : cur.size = n) (b : Comp → Mat ℝ) (a : Option (Comp → Mat ℝ)) (hfb : ∀ c, Fit par n (b c)) (hfa : ∀ t, a = some t → ∀ c, Fit par n (t c)) :
    ∃ f, writeFile par cur b a = .ok f ∧ Contains par n cur b a f :=
  contents_large par n hn hb hr hz hp cur hcur b a (fun c => (hfb c).large) fun t ht c => (hfa t ht c).large

end Verif.Makegrid
