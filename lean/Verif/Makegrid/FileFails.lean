import Verif.Makegrid.FileLoad

/-!
# C106: cases, and where the file does not hold what it should
-/
namespace Verif.Makegrid
open Verif Verif.Coils Verif.Mgrid

/-! ## the hypotheses can be met -/

/-- two circuits on the grid of `demoPar`, all entries different -/
def demoMat (c : Comp) : Mat ℝ where
  rows := 2
  cols := 16
  val := fun i k => (match c with | .r => 0 | .p => 100 | .z => 200) + 16 * i + k

def demoCur : Vec ℝ := ⟨2, fun i => 3 + i⟩

/-- the file of a table with two circuits and its vector potential: the entry of the second circuit at `(3, 1, 0)` -/
example : ∃ f, writeFile (demoPar (-1) true) demoCur demoMat (some demoMat) = .ok f ∧ ∃ v, f.vars "bz_002" = some v ∧ v.data 14 = .d 230 := by
  obtain ⟨f, h, hc⟩ := C106_contents (demoPar (-1) true) 2 (by norm_num) (by norm_num) (by decide) (by decide) (by decide) demoCur rfl demoMat (some demoMat) (fun _ => ⟨rfl, rfl⟩)
    (fun t ht c => by injection ht with ht; subst ht; exact ⟨rfl, rfl⟩)
  obtain ⟨v, e, _, _, e3⟩ := hc.field .z 1 (by norm_num) (by norm_num)
  refine ⟨f, h, v, ?_, ?_⟩
  · have : tableName (bName .z) 1 = "bz_002" := by decide +kernel
    rw [this] at e; exact e
  · have := e3 3 1 0 ⟨by decide, by decide, by decide, by decide, by decide, by decide⟩
    have e14 : flat (demoPar (-1) true) 3 1 0 = 14 := by decide
    rw [e14] at this
    rw [this]
    simp only [demoMat]
    norm_num

/-- the round trip for the same table -/
example (junk : NcType → Int → ℝ) : ∃ f file, writeFile (demoPar (-1) true) demoCur demoMat none = .ok f ∧ asFile junk f = .ok file ∧
    node (loadFile MGrid.init file ⟨2, fun _ => 1⟩).1 .r 3 1 0 = node (loadFields MGrid.init (asTable (demoPar (-1) true) demoMat) ⟨2, fun _ => 1⟩).1 .r 3 1 0 := by
  obtain ⟨f, file, h1, h2, h3⟩ := C106_roundtrip (demoPar (-1) true) 2 (by norm_num) (by norm_num) (by decide) (by decide) (by decide) demoCur rfl demoMat none (fun _ => ⟨rfl, rfl⟩)
    (fun t ht => by cases ht) junk
  obtain ⟨_, ok, s⟩ := h3 MGrid.init MGrid.init ⟨2, fun _ => 1⟩ rfl
  obtain ⟨_, k1, k2, k3, _⟩ := C36_fields_superposition (MGrid.init : MGrid ℝ) (asTable (demoPar (-1) true) demoMat) ⟨2, fun _ => 1⟩ (by norm_num) ⟨⟨by decide, by decide, by decide⟩, fun _ => rfl, fun _ => rfl⟩
  exact ⟨f, file, h1, h2, s.val .r 3 1 0 (by norm_num) (by rw [s.numPhi, k3]; decide) (by norm_num) (by rw [s.numZ, k2]; decide) (by norm_num) (by rw [s.numR, k1]; decide)⟩

/-! ## sizes are not compared -/

/-- the parameters are not compared with the tables: a table with too few columns (or a component with too few rows) is read beyond its end -/
theorem C106_small_table_ub (par : Params) (n : Int) (hn : 0 < n) (hr : 0 < par.number_of_r_grid_points) (hz : 0 < par.number_of_z_grid_points) (hp : 0 < par.number_of_phi_grid_points)
    (cur : Vec ℝ) (hcur : cur.size = n) (b : Comp → Mat ℝ) (a : Option (Comp → Mat ℝ)) (hrow : (b .r).rows = n) (c : Comp) (i : Int) (i0 : 0 ≤ i) (i1 : i < n)
    (hs : ((b c).rows - i) * (b c).cols < points par) : ∃ w, writeFile par cur b a = .ub w := by
  obtain ⟨f0, f1, e0, e1, hd, hv⟩ := defined_ok par n hn hr hz hp a.isSome
  have drad : f1.dims "rad" = some par.number_of_r_grid_points := hd ("rad", _) (by simp [fileDims])
  have dzee : f1.dims "zee" = some par.number_of_z_grid_points := hd ("zee", _) (by simp [fileDims])
  have dphi : f1.dims "phi" = some par.number_of_phi_grid_points := hd ("phi", _) (by simp [fileDims])
  have hgrid : f1.count ["phi", "zee", "rad"] = points par := by
    simp only [Nc.count, List.map_cons, List.map_nil, List.prod_cons, List.prod_nil, dphi, dzee, drad, Option.getD_some, points]; ring
  have hheadv : ∀ q ∈ headVars, f1.vars q.1 = some ⟨q.2.1, q.2.2, fun _ => .i 0⟩ := fun q hq => hv q (List.mem_append_left _ hq)
  have htabv : ∀ p ∈ prefixes a.isSome, ∀ i, 0 ≤ i → i < n → f1.vars (tableName p i) = some ⟨.double, ["phi", "zee", "rad"], fun _ => .i 0⟩ := by
    intro p hp' i h0 h1
    refine hv (tableName p i, .double, ["phi", "zee", "rad"]) (List.mem_append_right _ (List.mem_flatMap.2 ⟨i, mem_irange.2 ⟨h0, h1⟩, ?_⟩))
    rw [circuitVars_eq]
    exact List.mem_map.2 ⟨p, hp', rfl⟩
  have hput : ∀ p ∈ prefixes a.isSome, ∀ i, 0 ≤ i → i < n → (tableName p i, memRow (tableOf b a p) i) ∈ headPuts par n cur ++ (irange 0 n).flatMap (circuitPuts b a) := by
    intro p hp' i h0 h1
    refine List.mem_append_right _ (List.mem_flatMap.2 ⟨i, mem_irange.2 ⟨h0, h1⟩, ?_⟩)
    rw [circuitPuts_eq]
    exact List.mem_map.2 ⟨p, hp', rfl⟩
  have hc : bName c ∈ prefixes a.isSome := by unfold prefixes; cases c <;> simp [bName]
  have ht : tableOf b a (bName c) = b c := by cases c <;> rfl
  obtain ⟨w, hw⟩ := putVars_ub (headPuts par n cur ++ (irange 0 n).flatMap (circuitPuts b a)) f1 (by
      rw [List.map_append, List.map_flatMap]
      simp only [circuitPuts_names]
      exact names_nodup a.isSome n) (by
    intro q hq
    rcases List.mem_append.1 hq with hq | hq
    · have types : ∃ t d, (q.1, t, d) ∈ headVars ∧ t = q.2.ty := by
        simp only [headPuts, List.mem_cons, List.not_mem_nil, or_false] at hq
        rcases hq with rfl | rfl | rfl | rfl | rfl | rfl | rfl | rfl | rfl | rfl | rfl | rfl <;>
          simp [headVars, memInt, memDouble, memChar, memString, memVec]
      obtain ⟨t, d, h1, h2⟩ := types
      exact ⟨_, hheadv _ h1, h2⟩
    · obtain ⟨i, hi, hm⟩ := List.mem_flatMap.1 hq
      rw [circuitPuts_eq] at hm
      obtain ⟨p, hp', rfl⟩ := List.mem_map.1 hm
      exact ⟨_, htabv p hp' i (mem_irange.1 hi).1 (mem_irange.1 hi).2, rfl⟩)
    ⟨_, hput (bName c) hc i i0 i1, _, htabv (bName c) hc i i0 i1, by rw [hgrid, ht]; exact hs⟩
  refine ⟨w, ?_⟩
  unfold writeFile
  dsimp only
  rw [hrow, if_neg (by omega), if_neg (not_not.2 hcur), e0]
  show (defVars _ f0).bind _ = _
  rw [e1]
  exact hw

/-- one grid point more than the table has columns -/
example : ∃ w, writeFile { demoPar (-1) true with number_of_phi_grid_points := 5 } demoCur demoMat none = .ub w :=
  C106_small_table_ub _ 2 (by norm_num) (by decide) (by decide) (by decide) demoCur rfl demoMat none rfl .r 1 (by norm_num) (by norm_num) (by decide)

/-- fewer grid points than the table has columns are accepted, and the entries go to other points: the table of the grid with two values of R, written with the parameters of a grid with one, has the response
    of the second R at the second Z -/
theorem C106_other_grid_accepted : ∃ f, writeFile { demoPar (-1) true with number_of_r_grid_points := 1 } demoCur demoMat none = .ok f ∧
    ∃ v, f.vars "br_001" = some v ∧ v.data (flat { demoPar (-1) true with number_of_r_grid_points := 1 } 0 1 0) = .d ((demoMat .r).val 0 (flat (demoPar (-1) true) 0 0 1)) := by
  obtain ⟨f, h, hc⟩ := contents_large { demoPar (-1) true with number_of_r_grid_points := 1 } 2 (by norm_num) (by norm_num) (by decide) (by decide) (by decide) demoCur rfl demoMat none
    (fun _ => ⟨rfl, (by decide : (8 : Int) ≤ 16)⟩) (fun t ht => by cases ht)
  obtain ⟨v, e, _, _, e3⟩ := hc.field .r 0 (by norm_num) (by norm_num)
  refine ⟨f, h, v, ?_, ?_⟩
  · have : tableName (bName .r) 0 = "br_001" := by decide +kernel
    rw [this] at e; exact e
  · have := e3 0 1 0 ⟨by decide, by decide, by decide, by decide, by decide, by decide⟩
    rw [this]
    rfl

/-! ## the currents of the program -/

/-- all currents are one -/
def Ones (cfg : Config) : Prop := ∀ c ∈ cfg.circuits, c.current = some (.fin 1)

theorem finish_ones {st st' : St} {id : Int} {name : Str} (h : Ones st.cfg) (e : st.finish id name = .ok st') : Ones st'.cfg := by
  unfold St.finish at e
  split at e
  · cases e
  · split at e
    · cases e
    · split at e
      · split at e
        · injection e with e
          subst e
          intro c hc
          dsimp only at hc
          obtain ⟨j, hj, rfl⟩ := List.mem_iff_getElem.1 hc
          rw [List.getElem_modify]
          have hj' : j < st.cfg.circuits.length := by simpa using hj
          split
          · exact h st.cfg.circuits[j] (List.getElem_mem hj')
          · exact h _ (List.getElem_mem hj')
        · cases e
      · injection e with e
        subst e
        intro c hc
        dsimp only at hc
        rcases List.mem_append.1 hc with hc | hc
        · exact h c hc
        · rw [List.mem_singleton.1 hc]

theorem dataLine_ones {v : Conv} {line : Str} {st st' : St} (h : Ones st.cfg) (e : dataLine v line st = .ok st') : Ones st'.cfg := by
  unfold dataLine at e
  dsimp only at e
  split at e
  · rcases hp : Coils.point v (parts line) with p | _ | _ | _ | _ <;> rw [hp] at e
    · simp only [Outcome.bind_ok] at e
      split at e
      · split at e
        · split at e
          · exact finish_ones (st := { st with pts := st.pts ++ [p] }) h e
          · cases e
        · cases e
      · injection e with e
        subst e
        exact h
    all_goals cases e
  · cases e

theorem parse_ones {v : Conv} : ∀ (ls : List Str) (st : St) (r : Config × List Str), Ones st.cfg → parse v ls st = .ok r → Ones r.1
  | [], st, r, _, e => by cases e
  | raw :: rest, st, r, h, e => by
    unfold parse at e
    dsimp only at e
    split at e
    · split at e
      · exact parse_ones rest st r h e
      · cases e
    · split at e
      · injection e with e
        subst e
        exact h
      · split at e
        · rename_i st' hd
          exact parse_ones rest st' r (dataLine_ones h hd) e
        all_goals cases e

theorem import_ones {v : Conv} : ∀ (k : Nat) (ls : List Str) (cfg cfg' : Config), Ones cfg → importLoop v k ls cfg = .ok cfg' → Ones cfg'
  | 0, ls, cfg, cfg', h, e => by
    unfold importLoop at e
    injection e with e; subst e; exact h
  | k + 1, [], cfg, cfg', h, e => by
    unfold importLoop at e
    injection e with e; subst e; exact h
  | k + 1, raw :: rest, cfg, cfg', h, e => by
    unfold importLoop at e
    dsimp only at e
    split at e
    · split at e
      · split at e
        · exact import_ones k rest { cfg with num_field_periods := some _ } cfg' h e
        · cases e
      · cases e
    · split at e
      · rcases hp : parse v rest { coil_ids := [], pts := [], cfg := cfg } with r | _ | _ | _ | _ <;> rw [hp] at e
        · simp only [Outcome.bind_ok] at e
          exact import_ones k r.2 r.1 cfg' (parse_ones rest _ r h hp) e
        all_goals cases e
      · exact import_ones k rest cfg cfg' h e

/-- whatever the coils file says, the program writes the current 1 for every circuit: the currents of the file are kept as numbers of windings, and the windings are turned into currents only in a copy -/
theorem C106_currents_one (v : Conv) (text : Str) (cfg : Config) (l : List D) (hi : importMakegrid v text = .ok cfg) (hm : mainCurrents cfg = .ok l) : l = List.replicate cfg.circuits.length (.fin 1) := by
  have h := import_ones _ _ _ cfg (fun c hc => by cases hc) hi
  unfold mainCurrents getCircuitCurrents at hm
  split at hm
  · injection hm with hm
    subst hm
    rw [List.eq_replicate_iff]
    refine ⟨by simp, fun x hx => ?_⟩
    obtain ⟨c, hc, rfl⟩ := List.mem_map.1 hx
    unfold Circuit.cur
    rw [h c hc]
    rfl
  · cases hm

/-- so the current in the file times the table in the file is not the field of the coils: with normalised tables it lacks the number of windings (the current of the coils file) of the first coil -/
theorem C106_currents_lack_windings {par : Params} {lib : Library} {cfg : Config} (v : Conv) (text : Str) (hi : importMakegrid v text = .ok cfg) (hl : Linear lib) (hv : Valid par)
    (hpop : populated cfg = true) (hw : AllWound cfg) (hnorm : par.normalize_by_currents = true)
    (hs : par.assume_stellarator_symmetry = true → par.z_grid_minimum = -par.z_grid_maximum ∧ ∀ c ∈ cfg.circuits, Symmetric par.number_of_field_periods (circuitField lib c)) :
    ∃ rows, responseTable par lib cfg = .ok rows ∧ rows.length = cfg.circuits.length ∧ mainCurrents cfg = .ok (List.replicate cfg.circuits.length (.fin 1)) ∧
      ∀ i (hi : i < cfg.circuits.length) (hi' : i < rows.length) (ip iz ir : Int), OnGrid par ip iz ir →
        ∃ x, rows[i] (flat par ip iz ir) = some x ∧
          (amps cfg.circuits[i] : ℝ) • comps (circuitField lib cfg.circuits[i]) (gridR par ir) (gridPhi par ip) (gridZ par iz) = (firstWind cfg.circuits[i] : ℝ) • x := by
  obtain ⟨rows, h1, h2, h3⟩ := C57_table_partial (par := par) hl hv hpop (fun c hc => wound_finite (hw c hc)) (fun _ => hw) hs
  have hone := import_ones _ _ _ cfg (fun c hc => by cases hc) hi
  have hm : mainCurrents cfg = .ok (cfg.circuits.map Circuit.cur) := by
    unfold mainCurrents getCircuitCurrents
    rw [if_pos hpop]
  refine ⟨rows, h1, h2, by rw [hm, ← C106_currents_one v text cfg _ hi hm], fun i hi hi' ip iz ir hon => ?_⟩
  refine ⟨_, h3 i hi hi' ip iz ir hon, ?_⟩
  rw [if_pos hnorm]
  have hc := List.getElem_mem hi
  have hne : (firstWind cfg.circuits[i] : ℝ) ≠ 0 := by exact_mod_cast firstWind_ne (hw _ hc)
  have ha : amps cfg.circuits[i] = 1 := by unfold amps; rw [hone _ hc]
  rw [smul_smul, mul_inv_cancel₀ hne, ha]
  norm_num

/-- the configuration of a file with one ring and the current 2 -/
def ringCircuit : Circuit := ⟨some (.fin 1), [⟨some (.fin 2), [.circular "a".toList (.fin 1) (.fin 0, .fin 0, .fin 0) (.fin 0, .fin 0, .fin 1)]⟩]⟩
def ringConfig : Config := { num_field_periods := none, circuits := [ringCircuit] }

theorem ring_field : circuitField demoLib ringCircuit = circuitField demoLib demoCircuit := by
  funext p
  rw [demo_field]
  simp [circuitField, ringCircuit, demoLib, wind]

/-- the ring carries 2, the file says 1, and the table in the file times this current is half of the field of the ring -/
theorem C106_half_field : importMakegrid demo "begin filament\n1 0 0 2 7 a\nend\n".toList = .ok ringConfig ∧ mainCurrents ringConfig = .ok [.fin 1] ∧
    ∃ row, responseTable (demoPar (-1) true) demoLib ringConfig = .ok [row] ∧ ∃ x, row (flat (demoPar (-1) true) 3 1 0) = some x ∧
      comps (totalField demoLib ringConfig) (gridR (demoPar (-1) true) 0) (gridPhi (demoPar (-1) true) 3) (gridZ (demoPar (-1) true) 1) = (2 : ℝ) • x ∧ x ≠ 0 := by
  have hi : importMakegrid demo "begin filament\n1 0 0 2 7 a\nend\n".toList = .ok ringConfig := by decide +kernel
  have hw : AllWound ringConfig := by
    intro c hc
    rw [ringConfig, List.mem_singleton] at hc
    subst hc
    refine ⟨⟨1, rfl⟩, ⟨_, _, rfl, 2, rfl, by norm_num⟩, ?_⟩
    intro k hk
    simp only [ringCircuit, List.mem_singleton] at hk
    subst hk
    exact ⟨2, rfl⟩
  obtain ⟨rows, h1, h2, h3, h4⟩ := C106_currents_lack_windings (par := demoPar (-1) true) (lib := demoLib) demo _ hi demoLib_linear (demoPar_valid (by norm_num) true) (by decide) hw rfl
    (fun _ => ⟨rfl, fun c hc => by
      rw [ringConfig, List.mem_singleton] at hc; subst hc; rw [ring_field]; exact demo_symmetric _⟩)
  refine ⟨hi, h3, ?_⟩
  match rows, h2 with
  | [row], _ =>
    refine ⟨row, h1, ?_⟩
    obtain ⟨x, hx, e⟩ := h4 0 (by decide) (by simp) 3 1 0 ⟨by decide, by decide, by decide, by decide, by decide, by decide⟩
    have ec : ringConfig.circuits[0] = ringCircuit := rfl
    rw [ec] at e
    have hf : firstWind ringCircuit = 2 := rfl
    have ha : amps ringCircuit = 1 := rfl
    rw [hf, ha, ring_field, demo_comps] at e
    have tf : totalField demoLib ringConfig = circuitField demoLib demoCircuit := by
      funext p
      simp only [totalField, ringConfig, List.map_cons, List.map_nil, List.sum_cons, List.sum_nil, ha, ring_field]
      norm_num
    refine ⟨x, hx, ?_, ?_⟩
    · rw [tf, demo_comps]
      rw [Rat.cast_one, one_smul] at e
      rw [e]
      norm_num
    · rintro rfl
      rw [smul_zero, Rat.cast_one, one_smul] at e
      have := congrArg (fun p : V => p.2.2) e
      simp [gridZ, demoPar] at this
      norm_num at this

/-! ## files of other programs -/

/-- the mode as a number: the buffer of the string has one byte for each element, the elements are larger -/
theorem C106_mode_number_ub (junk : NcType → Int → ℝ) (f : Nc) (v : Var) (d : String) (n : Int) (h : f.vars "mgrid_mode" = some v) (hd : v.dims = [d]) (hn : f.dims d = some n) (h0 : 0 < n)
    (ht : v.ty ≠ .char) : ∃ w, asFile junk f = .ub w := by
  have : readString f "mgrid_mode" = .ub "write beyond the buffer" := by
    unfold readString
    rw [h]
    dsimp only
    rw [hd]
    dsimp only
    rw [if_neg ht, hn, if_neg (by simpa using h0)]
  refine ⟨"write beyond the buffer", ?_⟩
  unfold asFile readHeader
  rw [this]
  rfl

/-- tables of single precision are accepted, and their bytes are taken for doubles -/
theorem C106_float_tables (junk : NcType → Int → ℝ) (f : Nc) (name : String) (v : Var) (h : f.vars name = some v) (hd : v.dims = ["phi", "zee", "rad"]) (ht : v.ty = .float) (P Z R : Int)
    (h1 : f.dims "phi" = some P) (h2 : f.dims "zee" = some Z) (h3 : f.dims "rad" = some R) :
    ∃ t, readArray3 junk f name = some t ∧ shapeOk t P Z R = true ∧ ∀ i j k, t.val i j k = junk .float ((i * Z + j) * R + k) := by
  unfold readArray3
  rw [h]
  dsimp only
  rw [hd]
  dsimp only
  rw [h1, h2, h3, ht]
  refine ⟨_, rfl, by simp [shapeOk], fun i j k => ?_⟩
  dsimp only
  rw [if_neg (by decide)]
  rfl

end Verif.Makegrid
