import Verif.Makegrid.Lemmas
import Mathlib.Tactic.Module
import Mathlib.Data.List.GetD
import Mathlib.Algebra.Module.Prod

namespace Verif.Makegrid
open Verif Verif.Coils

variable {lib : Library}

/-! ## field of a finite configuration -/

theorem foldl_addTerm (p : V) (l : List (Carrier × ℚ)) (a : V) :
    (l.map fun s => (s.1, D.fin s.2)).foldl (addTerm lib p) (some a) =
      some (a + (l.map fun s => lib s.1 s.2 p).sum) := by
  induction l generalizing a with
  | nil => simp
  | cons s l ih =>
    simp only [List.map_cons, List.foldl_cons, addTerm, ih, List.sum_cons, add_assoc]

/-- carriers and currents of one circuit -/
def finSources (c : Circuit) : List (Carrier × ℚ) :=
  if amps c = 0 then []
  else c.coils.flatMap fun k => (k.carriers.filter fun t => t ≠ .notSet).map fun t => (t, amps c * wind k)

theorem sources_fin {cfg : Config} (h : ∀ c ∈ cfg.circuits, Finite c) :
    sources cfg = (cfg.circuits.flatMap finSources).map fun s => (s.1, D.fin s.2) := by
  unfold sources
  rw [List.map_flatMap]
  refine List.flatMap_congr fun c hc => ?_
  have hf := h c hc
  rw [hf.current]
  unfold finSources
  by_cases h0 : amps c = 0
  · rw [if_pos h0, h0]; simp [isZero]
  · rw [if_neg h0]
    simp only [isZero, h0, decide_false, Bool.false_eq_true, if_false]
    rw [List.map_flatMap]
    refine List.flatMap_congr fun k hk => ?_
    rw [List.map_map]
    refine List.map_congr_left fun t _ => ?_
    simp only [Function.comp_apply, Prod.mk.injEq, true_and]
    rcases hf.windings k hk with e | e
    · unfold coilCurrent wind; rw [e]; simp
    · unfold coilCurrent; rw [e]; simp [D.mul]

theorem finSources_sum (hl : Linear lib) (c : Circuit) (p : V) :
    ((finSources c).map fun s => lib s.1 s.2 p).sum = (amps c : ℝ) • circuitField lib c p := by
  unfold finSources circuitField
  by_cases h0 : amps c = 0
  · rw [if_pos h0, h0]; simp
  · rw [if_neg h0]
    induction c.coils with
    | nil => simp
    | cons k ks ih =>
      rw [List.flatMap_cons, List.map_append, List.sum_append, ih, List.map_cons, List.sum_cons, smul_add]
      congr 1
      induction (k.carriers.filter fun t => t ≠ .notSet) with
      | nil => simp
      | cons t ts ih2 =>
        simp only [List.map_cons, List.sum_cons]
        rw [ih2, hl t (amps c * wind k) p, smul_add, smul_add, smul_smul, smul_smul]
        push_cast
        rfl

theorem fieldAt_fin (hl : Linear lib) {cfg : Config} (h : ∀ c ∈ cfg.circuits, Finite c) (p : V) :
    fieldAt lib cfg p = some (totalField lib cfg p) := by
  unfold fieldAt totalField
  rw [sources_fin h, foldl_addTerm, zero_add]
  congr 1
  induction cfg.circuits with
  | nil => simp
  | cons c cs ih =>
    rw [List.flatMap_cons, List.map_append, List.sum_append, ih, finSources_sum hl, List.map_cons, List.sum_cons]

/-! ## one circuit switched on -/

theorem single_sum {M : Type*} [AddCommMonoid M] (f : Circuit → D → M) (hf : ∀ c, f c (.fin 0) = 0)
    (cs : List Circuit) (i : Nat) (hi : i < cs.length) (x : D) :
    (List.zipWith f cs ((List.replicate cs.length (.fin 0)).set i x)).sum = f cs[i] x := by
  induction cs generalizing i with
  | nil => simp at hi
  | cons c cs ih =>
    have hz : ∀ cs : List Circuit, (List.zipWith f cs (List.replicate cs.length (.fin 0))).sum = 0 := by
      intro cs
      induction cs with
      | nil => rfl
      | cons c cs ih => simp [List.replicate_succ, hf, ih]
    cases i with
    | zero => simp [List.replicate_succ, hz]
    | succ i =>
      simp only [List.length_cons, List.replicate_succ, List.set_cons_succ, List.zipWith_cons_cons, hf, List.sum_cons,
        zero_add, List.getElem_cons_succ]
      exact ih i (by simpa using hi)

theorem currents_finite {par : Params} {original : List D} (ho : ∀ x ∈ original, ∃ q, x = .fin q) (i : Nat) :
    ∀ x ∈ currentsFor par original i, ∃ q, x = .fin q := by
  intro x hx
  unfold currentsFor at hx
  rcases List.mem_or_eq_of_mem_set hx with hx | rfl
  · rw [List.mem_replicate] at hx
    exact ⟨0, hx.2⟩
  · split
    · exact ⟨1, rfl⟩
    · by_cases h : i < original.length
      · rw [List.getD_eq_getElem _ _ h]
        exact ho _ (List.getElem_mem h)
      · rw [List.getD_eq_default _ _ (by omega)]
        exact ⟨0, rfl⟩

theorem zip_finite {cs : List Circuit} {is : List D} (hc : ∀ c ∈ cs, Finite c) (hi : ∀ x ∈ is, ∃ q, x = .fin q) :
    ∀ c ∈ List.zipWith (fun (c : Circuit) i => ({ c with current := some i } : Circuit)) cs is, Finite c := by
  induction cs generalizing is with
  | nil => simp
  | cons c cs ih =>
    cases is with
    | nil => simp
    | cons x is =>
      intro d hd
      rw [List.zipWith_cons_cons, List.mem_cons] at hd
      rcases hd with rfl | hd
      · obtain ⟨q, rfl⟩ := hi x (by simp)
        exact ⟨rfl, (hc c (by simp)).windings⟩
      · exact ih (fun c hc' => hc c (by simp [hc'])) (fun x hx => hi x (by simp [hx])) d hd

theorem zip_populated {cs : List Circuit} {is : List D} (n m : Option Int)
    (h : populated { num_field_periods := n, circuits := cs } = true) :
    populated { num_field_periods := m, circuits := List.zipWith (fun (c : Circuit) i => ({ c with current := some i } : Circuit)) cs is } = true := by
  unfold populated at h ⊢
  dsimp only at h ⊢
  induction cs generalizing is with
  | nil => simp
  | cons c cs ih =>
    cases is with
    | nil => simp
    | cons x is =>
      rw [List.all_cons, Bool.and_eq_true] at h
      rw [List.zipWith_cons_cons, List.all_cons, Bool.and_eq_true]
      exact ⟨h.1, ih h.2⟩

/-- the current of the circuit while its row is computed -/
def rowCurrent (par : Params) (c : Circuit) : ℚ := if par.normalize_by_currents then 1 else amps c

theorem row_ok {par : Params} (hl : Linear lib) {g : Int → V} {n : Int} {cfg : Config} (hf : ∀ c ∈ cfg.circuits, Finite c)
    (hp : populated cfg = true) {i : Nat} (hi : i < cfg.circuits.length) :
    row par lib g n cfg (cfg.circuits.map Circuit.cur) i = .ok (toCylindrical par
      (fun j => some ((rowCurrent par cfg.circuits[i] : ℝ) • circuitField lib cfg.circuits[i] (g j))) n
      (par.number_of_phi_grid_points * par.number_of_z_grid_points * par.number_of_r_grid_points)) := by
  have hcur : ∀ c ∈ cfg.circuits, c.cur = .fin (amps c) := fun c hc => by
    unfold Circuit.cur; rw [(hf c hc).current]; rfl
  have ho : ∀ x ∈ cfg.circuits.map Circuit.cur, ∃ q, x = D.fin q := by
    intro x hx
    obtain ⟨c, hc, rfl⟩ := List.mem_map.1 hx
    exact ⟨_, hcur c hc⟩
  have hlen : (currentsFor par (cfg.circuits.map Circuit.cur) i).length = cfg.circuits.length := by
    unfold currentsFor; simp
  have hval : currentsFor par (cfg.circuits.map Circuit.cur) i =
      (List.replicate cfg.circuits.length (.fin 0)).set i (.fin (rowCurrent par cfg.circuits[i])) := by
    unfold currentsFor rowCurrent
    rw [List.length_map]
    congr 1
    split
    · rfl
    · rw [List.getD_eq_getElem _ _ (by simpa using hi), List.getElem_map, hcur _ (List.getElem_mem hi)]
  unfold row setCircuitCurrents
  rw [if_neg (by rw [hlen]; simp)]
  simp only [Outcome.bind_ok]
  have hpop := zip_populated (is := currentsFor par (cfg.circuits.map Circuit.cur) i) cfg.num_field_periods
    cfg.num_field_periods (cs := cfg.circuits) hp
  rw [if_pos hpop]
  congr 2
  funext j
  have := fieldAt_fin (cfg := { cfg with circuits := List.zipWith (fun (c : Circuit) i => ({ c with current := some i } : Circuit)) cfg.circuits (currentsFor par (cfg.circuits.map Circuit.cur) i) }) hl
    (zip_finite hf (currents_finite ho i)) (g j)
  rw [this]
  congr 1
  unfold totalField
  dsimp only
  rw [List.map_zipWith, hval]
  rw [single_sum (fun (c : Circuit) (x : D) => (amps { c with current := some x } : ℝ) • circuitField lib { c with current := some x } (g j)) _ _ i hi]
  · rfl
  · intro c; simp [amps]

/-! ## migration -/

theorem wound_finite {c : Circuit} (h : Wound c) : Finite c := by
  obtain ⟨i, hi⟩ := h.current
  refine ⟨by unfold amps; rw [hi], fun k hk => Or.inr ?_⟩
  obtain ⟨w, hw⟩ := h.windings k hk
  unfold wind; rw [hw]

theorem firstWind_ne {c : Circuit} (h : Wound c) : firstWind c ≠ 0 := by
  obtain ⟨k, l, e, w, hw, hne⟩ := h.coils
  unfold firstWind
  rw [e]
  simp [wind, hw, hne]

/-- the circuit after migration -/
def migrated (c : Circuit) : Circuit where
  current := some (.fin (amps c * firstWind c))
  coils := c.coils.map fun k => { k with windings := some (.fin (wind k / firstWind c)) }

theorem migrate_eq {c : Circuit} (h : Wound c) : migrate c = .ok (migrated c) := by
  have hne := firstWind_ne h
  obtain ⟨i, hi⟩ := h.current
  obtain ⟨k0, l, e, w, hw, -⟩ := h.coils
  have hW : firstWind c = w := by unfold firstWind; rw [e]; simp [wind, hw]
  rw [hW] at hne
  unfold migrated
  rw [hW]
  have : migrate c = .ok { current := some (D.mul c.cur k0.num_windings)
                           coils := c.coils.map fun k => { k with windings := some (Coils.div k.num_windings k0.num_windings) } } := by
    unfold migrate
    rw [e]
  rw [this]
  have e0 : k0.num_windings = .fin w := by unfold Coil.num_windings; rw [hw]; rfl
  have ec : c.cur = .fin (amps c) := by unfold Circuit.cur amps; rw [hi]; rfl
  rw [e0, ec]
  refine congrArg Outcome.ok ?_
  refine congrArg₂ Circuit.mk rfl (List.map_congr_left fun k hk => ?_)
  obtain ⟨wk, hk⟩ := h.windings k hk
  unfold Coil.num_windings wind
  rw [hk]
  simp [Coils.div, hne]

theorem migrated_finite (c : Circuit) : Finite (migrated c) := by
  refine ⟨rfl, fun k hk => Or.inr ?_⟩
  obtain ⟨k', -, rfl⟩ := List.mem_map.1 hk
  rfl

theorem migrated_field (c : Circuit) (p : V) :
    circuitField lib (migrated c) p = ((firstWind c : ℝ)⁻¹) • circuitField lib c p := by
  unfold circuitField migrated
  dsimp only
  rw [List.map_map]
  induction c.coils with
  | nil => simp
  | cons k ks ih =>
    simp only [List.map_cons, List.sum_cons, smul_add, Function.comp_apply] at ih ⊢
    rw [ih, smul_smul]
    congr 2
    unfold wind
    dsimp only
    push_cast
    rw [div_eq_inv_mul]

theorem effective_ok {par : Params} {cfg : Config} (h : par.normalize_by_currents = true → AllWound cfg) :
    effective par cfg = .ok { cfg with
      circuits := if par.normalize_by_currents = true then cfg.circuits.map migrated else cfg.circuits } := by
  unfold effective
  by_cases hn : par.normalize_by_currents = true
  · rw [if_pos hn, if_pos hn]
    unfold numWindingsToCircuitCurrents
    have : cfg.circuits.mapM migrate = .ok (cfg.circuits.map migrated) := by
      have key : ∀ cs : List Circuit, (∀ c ∈ cs, Wound c) → cs.mapM migrate = .ok (cs.map migrated) := by
        intro cs
        induction cs with
        | nil => intro _; rfl
        | cons c cs ih =>
          intro h
          rw [List.mapM_cons, migrate_eq (h c (by simp)), ih fun c hc => h c (by simp [hc])]
          rfl
      exact key _ (h hn)
    rw [this]; rfl
  · rw [if_neg hn, if_neg hn]

theorem populated_migrated {cfg : Config} (h : populated cfg = true) :
    populated { cfg with circuits := cfg.circuits.map migrated } = true := by
  unfold populated at h ⊢
  dsimp only
  rw [List.all_map]
  rw [List.all_eq_true] at h ⊢
  intro c hc
  have := h c hc
  simp only [Function.comp_apply, migrated, List.all_map]
  exact this

theorem mapM_range {α : Type} {n : Nat} {f : Nat → Outcome α} {g : Nat → α} (h : ∀ i, i < n → f i = .ok (g i)) :
    (List.range n).mapM f = .ok ((List.range n).map g) := by
  have : ∀ l : List Nat, (∀ i ∈ l, i < n) → l.mapM f = .ok (l.map g) := by
    intro l
    induction l with
    | nil => intro _; rfl
    | cons x l ih =>
      intro hl
      rw [List.mapM_cons, h x (hl x (by simp)), ih fun i hi => hl i (by simp [hi])]
      rfl
  exact this _ fun i hi => List.mem_range.1 hi

end Verif.Makegrid
