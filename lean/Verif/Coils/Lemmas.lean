import Verif.Coils.Spec
import Mathlib.Data.List.Basic
import Mathlib.Data.List.Nodup
import Mathlib.Data.List.Induction

namespace Verif.Coils
open Verif

/-! ## grouping -/

theorem ids_snoc (l : List Int) (x : Int) :
    (l ++ [x]).eraseDups = if x ∈ l then l.eraseDups else l.eraseDups ++ [x] := by
  rw [List.eraseDups_append]
  by_cases h : x ∈ l
  · rw [if_pos h]
    have : List.removeAll [x] l = [] := by simp [List.removeAll, h]
    rw [this]; simp
  · rw [if_neg h]
    have : List.removeAll [x] l = [x] := by simp [List.removeAll, h]
    rw [this, List.eraseDups_cons]; simp

theorem ids_nodup (l : List Int) : l.eraseDups.Nodup := by
  induction l using List.reverseRecOn with
  | nil => simp
  | append_singleton l x ih =>
    rw [ids_snoc]
    split
    · exact ih
    · rename_i h
      rw [List.nodup_append]
      refine ⟨ih, by simp, ?_⟩
      intro a ha b hb
      rw [List.mem_singleton] at hb
      subst hb
      rintro rfl
      exact h (List.mem_eraseDups.1 ha)

/-- updating the circuit found by its number -/
theorem modify_at {ids : List Int} (hn : ids.Nodup) {id : Int} {i : Nat} (hf : ids.findIdx? (fun j => j == id) = some i)
    (g : Int → Circuit) (h : Circuit → Circuit) :
    i < ids.length ∧ (ids.map g).modify i h = ids.map fun j => if j = id then h (g j) else g j := by
  rw [List.findIdx?_eq_some_iff_getElem] at hf
  obtain ⟨hi, e, -⟩ := hf
  refine ⟨hi, ?_⟩
  have e : ids[i] = id := by simpa using e
  refine List.ext_getElem (by simp) ?_
  intro k h1 h2
  rw [List.getElem_modify]
  simp only [List.getElem_map]
  have hk : k < ids.length := by simpa using h2
  by_cases hik : i = k
  · subst hik; rw [if_pos rfl, if_pos e]
  · rw [if_neg hik, if_neg]
    intro he
    exact hik ((List.Nodup.getElem_inj_iff hn).1 (e.trans he.symm))

theorem group_snoc (fs : List Filament) (f : Filament) :
    group (fs ++ [f]) = (circuitIds (fs ++ [f])).map fun i =>
      { current := some (.fin 1)
        coils := (fs.filter fun f => f.id = i).map Filament.coil ++ (if f.id = i then [f.coil] else []) } := by
  unfold group
  refine List.map_congr_left fun i _ => ?_
  rw [List.filter_append, List.map_append]
  by_cases h : f.id = i
  · simp [h]
  · simp [h]

/-! ## rows -/

theorem first_row {a b : List Point} {p q : Point} {i j : Int} {n m : Str} {r s : List Row}
    (h : a.map Row.point ++ Row.last p i n :: r = b.map Row.point ++ Row.last q j m :: s) :
    a = b ∧ p = q ∧ i = j ∧ n = m ∧ r = s := by
  induction a generalizing b with
  | nil =>
    cases b with
    | nil =>
      simp only [List.map_nil, List.nil_append, List.cons.injEq, Row.last.injEq] at h
      exact ⟨rfl, h.1.1, h.1.2.1, h.1.2.2, h.2⟩
    | cons x b => simp at h
  | cons x a ih =>
    cases b with
    | nil => simp at h
    | cons y b =>
      simp only [List.map_cons, List.cons_append, List.cons.injEq, Row.point.injEq] at h
      obtain ⟨h1, h2, h3, h4, h5⟩ := ih h.2
      exact ⟨by rw [h.1, h1], h2, h3, h4, h5⟩

theorem no_last {a b : List Point} {p : Point} {i : Int} {n : Str} {r : List Row}
    (h : a.map Row.point = b.map Row.point ++ Row.last p i n :: r) : False := by
  have : Row.last p i n ∈ a.map Row.point := by rw [h]; simp
  simp at this

theorem points_inj {a b : List Point} (h : a.map Row.point = b.map Row.point) : a = b :=
  List.map_injective_iff.2 (fun _ _ h => Row.point.inj h) h

/-! ## one filament -/

/-- the state stands for the filaments read so far and the points of the current one -/
structure Rep (nfp : Option Int) (st : St) (fs : List Filament) (pend : List Point) : Prop where
  ids : st.coil_ids = circuitIds fs
  pts : st.pts = pend
  cfg : st.cfg = { num_field_periods := nfp, circuits := group fs }

theorem ne_false {a b : D} : ne a b = false ↔ a ≠ .nan ∧ a = b := by
  cases a <;> cases b <;> simp [ne]

theorem any_ne (l : List Point) (w : D) :
    l.any (fun p => ne p.w w) = false ↔ ∀ p ∈ l, p.w ≠ .nan ∧ p.w = w := by
  rw [List.any_eq_false]
  constructor
  · intro h p hp
    have := h p hp
    rw [Bool.not_eq_true] at this
    exact ne_false.1 this
  · intro h p hp
    rw [Bool.not_eq_true]
    exact ne_false.2 (h p hp)

/-- the carrier check of the code is the uniformity of the filament, and the coil is the filament's coil -/
theorem carrier_spec (f : Filament) : ∃ p0 l, f.points = p0 :: l ∧
    (carrier f.name f.points p0 ≠ none ↔ f.Uniform) ∧
    ∀ c, carrier f.name f.points p0 = some c → ({ windings := some p0.w, carriers := [c] } : Coil) = f.coil := by
  rcases hi : f.init with _ | ⟨p0, l⟩
  · have hp : f.points = [f.final] := by unfold Filament.points; rw [hi]; rfl
    refine ⟨f.final, [], hp, ?_, ?_⟩
    · rw [hp]
      refine ⟨fun _ p0 h => ?_, fun _ => by simp [carrier]⟩
      rw [hi] at h; simp at h
    · intro c hc
      rw [hp] at hc
      simp only [carrier, List.length_singleton, if_true, Option.some.injEq] at hc
      subst hc
      unfold Filament.coil Filament.windings
      rw [hi]; simp
  · have hp : f.points = p0 :: (l ++ [f.final]) := by unfold Filament.points; rw [hi]; rfl
    have hlen : ¬ (p0 :: (l ++ [f.final])).length = 1 := by simp
    have hdrop : ((p0 :: (l ++ [f.final])).drop 1).dropLast = l := by simp
    have hu : f.Uniform ↔ ∀ p ∈ l, p.w ≠ .nan ∧ p.w = p0.w := by
      unfold Filament.Uniform
      rw [hi]
      simp
    refine ⟨p0, l ++ [f.final], hp, ?_, ?_⟩
    · rw [hp, hu]
      unfold carrier
      rw [if_neg hlen, hdrop, ← any_ne]
      by_cases h : (l.any fun p => ne p.w p0.w) = true
      · simp [h]
      · rw [Bool.not_eq_true] at h; simp [h]
    · intro c hc
      rw [hp] at hc
      unfold carrier at hc
      rw [if_neg hlen, hdrop] at hc
      split at hc
      · cases hc
      · injection hc with hc
        subst hc
        unfold Filament.coil Filament.windings
        rw [hi, if_neg (by simp), hp]
        simp

/-- the last row of a filament -/
theorem finish_spec {nfp : Option Int} {st : St} {fs : List Filament} {f : Filament}
    (h : Rep nfp st fs f.points) :
    (f.Uniform ∧ ∃ st', st.finish f.id f.name = .ok st' ∧ Rep nfp st' (fs ++ [f]) []) ∨
    (¬ f.Uniform ∧ st.finish f.id f.name = .status "number of windings different") := by
  obtain ⟨p0, l, hp, hu, hc⟩ := carrier_spec f
  have hpts : st.pts = p0 :: l := h.pts.trans hp
  by_cases hU : f.Uniform
  · left
    refine ⟨hU, ?_⟩
    obtain ⟨c, e⟩ := Option.ne_none_iff_exists'.1 (hu.2 hU)
    have hcoil := hc c e
    have e' : carrier f.name st.pts p0 = some c := by rw [h.pts]; exact e
    have hcirc : st.cfg.circuits = group fs := by rw [h.cfg]
    have hgl : (group fs).length = (circuitIds fs).length := by unfold group; simp
    rcases hf : st.find f.id with _ | i
    · refine ⟨_, by unfold St.finish; rw [hpts]; dsimp only; rw [← hpts, e']; dsimp only; rw [hf], ?_⟩
      have hn : f.id ∉ fs.map Filament.id := by
        unfold St.find at hf
        rw [h.ids, List.findIdx?_eq_none_iff] at hf
        intro hm
        have := hf f.id (List.mem_eraseDups.2 hm)
        simp at this
      have hids : circuitIds (fs ++ [f]) = circuitIds fs ++ [f.id] := by
        unfold circuitIds
        rw [List.map_append, List.map_singleton, ids_snoc, if_neg hn]
      refine ⟨by rw [h.ids, hids], rfl, ?_⟩
      have hg : group (fs ++ [f]) = group fs ++ [{ current := some (.fin 1), coils := [f.coil] }] := by
        rw [group_snoc, hids, List.map_append]
        congr 1
        · unfold group
          refine List.map_congr_left fun i hi => ?_
          rw [if_neg, List.append_nil]
          rintro rfl
          exact hn (List.mem_eraseDups.1 hi)
        · have : fs.filter (fun g => g.id = f.id) = [] := by
            rw [List.filter_eq_nil_iff]
            intro g hg
            simp only [decide_eq_true_eq]
            intro e
            exact hn (e ▸ List.mem_map_of_mem hg)
          simp [this]
      rw [hcoil, hg, h.cfg]
    · have hmod := modify_at (ids_nodup (fs.map Filament.id)) (id := f.id) (i := i)
        (by unfold St.find at hf; rw [h.ids] at hf; exact hf)
        (fun j => { current := some (.fin 1), coils := (fs.filter fun g => g.id = j).map Filament.coil })
        (fun sc => { sc with coils := sc.coils ++ [f.coil] })
      have hlt : i < st.cfg.circuits.length := by rw [hcirc, hgl]; exact hmod.1
      refine ⟨_, by
        unfold St.finish; rw [hpts]; dsimp only; rw [← hpts, e']; dsimp only; rw [hf]; dsimp only
        rw [if_pos hlt], ?_⟩
      have hm : f.id ∈ fs.map Filament.id := by
        unfold St.find at hf
        rw [h.ids, List.findIdx?_eq_some_iff_getElem] at hf
        obtain ⟨hi, e, -⟩ := hf
        have e : (circuitIds fs)[i] = f.id := by simpa using e
        exact List.mem_eraseDups.1 (e ▸ List.getElem_mem hi)
      have hids : circuitIds (fs ++ [f]) = circuitIds fs := by
        unfold circuitIds
        rw [List.map_append, List.map_singleton, ids_snoc, if_pos hm]
      refine ⟨by rw [hids]; exact h.ids, rfl, ?_⟩
      dsimp only
      rw [hcoil, hcirc, group_snoc, hids, h.cfg]
      refine congrArg (fun c => ({ num_field_periods := nfp, circuits := c } : Config)) ?_
      refine hmod.2.trans (List.map_congr_left fun j _ => ?_)
      by_cases e : j = f.id
      · subst e; simp
      · rw [if_neg e, if_neg (fun h => e h.symm)]; simp
  · right
    refine ⟨hU, ?_⟩
    have e : carrier f.name st.pts p0 = none := by
      rw [h.pts]
      by_contra hne
      exact hU (hu.1 hne)
    unfold St.finish
    rw [hpts]
    dsimp only
    rw [← hpts, e]

end Verif.Coils

namespace Verif.Coils
open Verif

/-! ## the lines -/

variable {v : Conv}

/-- what a data line does -/
theorem dataLine_ok {line : Str} {st st' : St} :
    dataLine v line st = .ok st' ↔
      (∃ p, Written v line (.point p) ∧ st' = { st with pts := st.pts ++ [p] }) ∨
      (∃ p id n, Written v line (.last p id n) ∧ ({ st with pts := st.pts ++ [p] } : St).finish id n = .ok st') := by
  constructor
  · intro h
    unfold dataLine at h
    dsimp only at h
    split at h
    · rename_i hl
      match hp : parts line with
      | [] | [_] | [_, _] | [_, _, _] | [_, _, _, _, _] | _ :: _ :: _ :: _ :: _ :: _ :: _ :: _ =>
        rw [hp] at hl; simp at hl
      | [a, b, c, d] =>
        rw [hp] at h
        unfold point at h
        dsimp only at h
        split at h
        · rename_i x y z w ha hb hc hd
          simp only [Outcome.bind_ok] at h
          rw [if_neg (by simp)] at h
          injection h with h
          exact Or.inl ⟨_, .four hp ha hb hc hd, h.symm⟩
        · cases h
      | [a, b, c, d, i, n] =>
        rw [hp] at h
        unfold point at h
        dsimp only at h
        split at h
        · rename_i x y z w ha hb hc hd
          simp only [Outcome.bind_ok] at h
          rw [if_pos (by simp)] at h
          split at h
          · rename_i id hi
            exact Or.inr ⟨_, id, n, .six hp ha hb hc hd hi, h⟩
          · cases h
        · cases h
    · cases h
  · rintro (⟨p, hw, rfl⟩ | ⟨p, id, n, hw, hf⟩)
    · cases hw with
      | four hp ha hb hc hd =>
        unfold dataLine point
        simp [hp, ha, hb, hc, hd]
    · cases hw with
      | six hp ha hb hc hd hi =>
        unfold dataLine point
        simp [hp, ha, hb, hc, hd, hi, hf]

theorem parse_data {raw : Str} {rest : List Str} {st : St} (hm : isMirror (strip raw) = false)
    (he : isEnd (strip raw) = false) {r : Config × List Str} :
    parse v (raw :: rest) st = .ok r ↔ ∃ st', dataLine v (strip raw) st = .ok st' ∧ parse v rest st' = .ok r := by
  rw [parse]
  simp only [hm, he, Bool.false_eq_true, if_false]
  cases hd : dataLine v (strip raw) st <;> simp

theorem print_cons (f : Filament) (fs : List Filament) :
    print (f :: fs) = f.init.map Row.point ++ Row.last f.final f.id f.name :: print fs := by
  simp [print, Filament.rows]

theorem parse_sound {nfp : Option Int} {rest : List Str} {cfg : Config} :
    ∀ (ls : List Str) (st : St) (fs : List Filament) (pend : List Point), Rep nfp st fs pend →
      parse v ls st = .ok (cfg, rest) →
      ∃ body e rows, ∃ (fils : List Filament) (left : List Point), ls = body ++ e :: rest ∧ isMirror (strip e) = false ∧ isEnd (strip e) = true ∧
        Body v body rows ∧ pend.map Row.point ++ rows = print fils ++ left.map Row.point ∧
        (∀ f ∈ fils, f.Uniform) ∧ cfg = { num_field_periods := nfp, circuits := group (fs ++ fils) } := by
  intro ls
  induction ls with
  | nil => intro st fs pend _ h; rw [parse] at h; cases h
  | cons raw ls ih =>
    intro st fs pend hr h
    by_cases hm : isMirror (strip raw) = true
    · rw [parse] at h
      simp only [hm, if_true] at h
      split at h
      · rename_i ho
        obtain ⟨body, e, rows, fils, left, rfl, h1, h2, h3, h4⟩ := ih st fs pend hr h
        exact ⟨raw :: body, e, rows, fils, left, rfl, h1, h2, .mirror hm ho h3, h4⟩
      · cases h
    · rw [Bool.not_eq_true] at hm
      by_cases he : isEnd (strip raw) = true
      · rw [parse] at h
        simp only [hm, he, Bool.false_eq_true, if_false, if_true, Outcome.ok.injEq, Prod.mk.injEq] at h
        refine ⟨[], raw, [], [], pend, by rw [← h.2]; rfl, hm, he, .nil, by simp [print], by simp, ?_⟩
        rw [← h.1, hr.cfg, List.append_nil]
      · rw [Bool.not_eq_true] at he
        obtain ⟨st', hd, hp⟩ := (parse_data hm he).1 h
        rcases dataLine_ok.1 hd with ⟨p, hw, rfl⟩ | ⟨p, id, n, hw, hf⟩
        · obtain ⟨body, e, rows, fils, left, rfl, h1, h2, h3, h4, h5⟩ :=
            ih { st with pts := st.pts ++ [p] } fs (pend ++ [p]) ⟨hr.ids, by simp [hr.pts], hr.cfg⟩ hp
          refine ⟨raw :: body, e, .point p :: rows, fils, left, rfl, h1, h2, .row hm he hw h3, ?_, h5⟩
          rw [← h4]; simp
        · let f : Filament := { id := id, name := n, init := pend, final := p }
          rcases finish_spec (f := f) (nfp := nfp) (fs := fs) (st := { st with pts := st.pts ++ [p] })
            ⟨hr.ids, by rw [hr.pts]; rfl, hr.cfg⟩ with ⟨hu, st'', e1, hr'⟩ | ⟨-, e1⟩
          · have : st' = st'' := by
              have := hf.symm.trans e1
              injection this
            subst this
            obtain ⟨body, e, rows, fils, left, rfl, h1, h2, h3, h4, h5, h6⟩ := ih _ (fs ++ [f]) [] hr' hp
            refine ⟨raw :: body, e, .last p id n :: rows, f :: fils, left, rfl, h1, h2, .row hm he hw h3, ?_, ?_, ?_⟩
            · rw [print_cons]
              simp only [List.map_nil, List.nil_append] at h4
              rw [h4]
              simp [f]
            · intro g hg
              rcases List.mem_cons.1 hg with rfl | hg
              · exact hu
              · exact h5 g hg
            · rw [h6, List.append_assoc]; rfl
          · exact absurd (hf.symm.trans e1) (by simp)

theorem parse_complete {nfp : Option Int} {rest : List Str} {e : Str} (hem : isMirror (strip e) = false)
    (hee : isEnd (strip e) = true) {body : List Str} {rows : List Row} (hb : Body v body rows) :
    ∀ (st : St) (fs : List Filament) (pend : List Point), Rep nfp st fs pend → ∀ (fils : List Filament)
      (left : List Point), pend.map Row.point ++ rows = print fils ++ left.map Row.point →
      (∀ f ∈ fils, f.Uniform) →
      parse v (body ++ e :: rest) st = .ok ({ num_field_periods := nfp, circuits := group (fs ++ fils) }, rest) := by
  induction hb with
  | nil =>
    intro st fs pend hr fils left h hu
    rw [List.nil_append, parse]
    simp only [hem, hee, Bool.false_eq_true, if_false, if_true]
    cases fils with
    | nil => rw [hr.cfg, List.append_nil]
    | cons g gs =>
      exfalso
      rw [print_cons, List.append_nil, List.append_assoc, List.cons_append] at h
      exact no_last h
  | mirror hm ho _ ih =>
    intro st fs pend hr fils left h hu
    rw [List.cons_append, parse]
    simp only [hm, ho, if_true]
    exact ih st fs pend hr fils left h hu
  | row hm he hw _ ih =>
    rename_i raw ls r rs hbody
    intro st fs pend hr fils left h hu
    rw [List.cons_append, parse_data hm he]
    cases r with
    | point p =>
      refine ⟨_, dataLine_ok.2 (Or.inl ⟨p, hw, rfl⟩), ?_⟩
      refine ih { st with pts := st.pts ++ [p] } fs (pend ++ [p]) ⟨hr.ids, by simp [hr.pts], hr.cfg⟩ fils left ?_ hu
      rw [← h]; simp
    | last p id n =>
      cases fils with
      | nil =>
        exfalso
        refine no_last (a := left) (b := pend) (p := p) (i := id) (n := n) (r := rs) ?_
        rw [h]; simp [print]
      | cons g gs =>
        rw [print_cons, List.append_assoc, List.cons_append] at h
        obtain ⟨h1, h2, h3, h4, h5⟩ := first_row h
        have hg : g = { id := id, name := n, init := pend, final := p } := by
          cases g; simp_all
        rcases finish_spec (f := g) (nfp := nfp) (fs := fs) (st := { st with pts := st.pts ++ [p] })
            ⟨hr.ids, by rw [hr.pts, hg]; rfl, hr.cfg⟩ with ⟨-, st'', e1, hr'⟩ | ⟨hn, -⟩
        · have e2 : ({ st with pts := st.pts ++ [p] } : St).finish id n = .ok st'' := by
            rw [h3, h4]; exact e1
          refine ⟨st'', dataLine_ok.2 (Or.inr ⟨p, id, n, hw, e2⟩), ?_⟩
          have := ih st'' (fs ++ [g]) [] hr' gs left (by simpa using h5) fun f hf => hu f (by simp [hf])
          rw [this, List.append_assoc]; rfl
        · exact absurd (hu g (by simp)) hn

/-! ## nothing undefined -/

/-- every circuit number belongs to a circuit -/
def St.InRange (st : St) : Prop := st.coil_ids.length ≤ st.cfg.circuits.length

theorem finish_defined {st : St} (h : st.InRange) (id : Int) (n : Str) :
    (st.finish id n).Defined ∧ ∀ st', st.finish id n = .ok st' → st'.InRange := by
  unfold St.finish
  split
  · simp [Outcome.Defined]
  · split
    · simp [Outcome.Defined]
    · split
      · rename_i i hf
        have : i < st.cfg.circuits.length := by
          unfold St.find at hf
          rw [List.findIdx?_eq_some_iff_getElem] at hf
          exact lt_of_lt_of_le hf.1 h
        rw [if_pos this]
        refine ⟨by simp [Outcome.Defined], ?_⟩
        rintro st' ⟨rfl⟩
        unfold St.InRange at h ⊢
        simpa using h
      · refine ⟨by simp [Outcome.Defined], ?_⟩
        rintro st' ⟨rfl⟩
        unfold St.InRange at h ⊢
        simpa using h

theorem dataLine_defined {st : St} (h : st.InRange) (line : Str) :
    (dataLine v line st).Defined ∧ ∀ st', dataLine v line st = .ok st' → st'.InRange := by
  unfold dataLine
  dsimp only
  split
  · rename_i hl
    match hp : parts line with
    | [] | [_] | [_, _] | [_, _, _] | [_, _, _, _, _] | _ :: _ :: _ :: _ :: _ :: _ :: _ :: _ =>
      rw [hp] at hl; simp at hl
    | [a, b, c, d] =>
      unfold point
      dsimp only
      split
      · simp only [Outcome.bind_ok]
        rw [if_neg (by simp)]
        refine ⟨by simp [Outcome.Defined], ?_⟩
        rintro st' ⟨rfl⟩
        exact h
      · simp [Outcome.Defined]
    | [a, b, c, d, i, n] =>
      unfold point
      dsimp only
      split
      · simp only [Outcome.bind_ok]
        rw [if_pos (by simp)]
        split
        · refine finish_defined ?_ _ _; exact h
        · simp [Outcome.Defined]
      · simp [Outcome.Defined]
  · simp [Outcome.Defined]

theorem parse_defined : ∀ (ls : List Str) (st : St), st.InRange → (parse v ls st).Defined := by
  intro ls
  induction ls with
  | nil => intro st _; rw [parse]; simp [Outcome.Defined]
  | cons raw ls ih =>
    intro st h
    rw [parse]
    split
    · split
      · exact ih st h
      · simp [Outcome.Defined]
    · split
      · simp [Outcome.Defined]
      · have := dataLine_defined (v := v) h (strip raw)
        cases hd : dataLine v (strip raw) st with
        | ok st' => exact ih st' (this.2 st' hd)
        | ub w => exact absurd hd (this.1 w)
        | _ => simp [Outcome.Defined]

theorem importLoop_defined : ∀ (k : Nat) (ls : List Str) (cfg : Config), (importLoop v k ls cfg).Defined := by
  intro k
  induction k with
  | zero => intro ls cfg; rw [importLoop]; simp [Outcome.Defined]
  | succ k ih =>
    intro ls cfg
    cases ls with
    | nil => rw [importLoop]; simp [Outcome.Defined]
    | cons raw rest =>
      rw [importLoop]
      dsimp only
      split
      · split
        · split
          · exact ih _ _
          · simp [Outcome.Defined]
        · simp [Outcome.Defined]
      · split
        · have := parse_defined (v := v) rest { coil_ids := [], pts := [], cfg := cfg } (by simp [St.InRange])
          cases hp : parse v rest { coil_ids := [], pts := [], cfg := cfg } with
          | ok r => exact ih _ _
          | ub w => exact absurd hp (this w)
          | _ => simp [Outcome.Defined]
        · exact ih _ _

/-! ## text -/

theorem splitBlank_ne (s : Str) : splitBlank s ≠ [] := by
  induction s with
  | nil => simp [splitBlank]
  | cons c s ih =>
    unfold splitBlank
    split
    · simp
    · split <;> simp

theorem splitBlank_word {w : Str} (h : ∀ c ∈ w, c ≠ ' ' ∧ c ≠ '\t') (s : Str) :
    ∃ p ps, splitBlank s = p :: ps ∧ splitBlank (w ++ s) = (w ++ p) :: ps := by
  induction w with
  | nil =>
    obtain ⟨p, ps, e⟩ := List.exists_cons_of_ne_nil (splitBlank_ne s)
    exact ⟨p, ps, e, e⟩
  | cons c w ih =>
    obtain ⟨p, ps, e, e'⟩ := ih fun c hc => h c (by simp [hc])
    refine ⟨p, ps, e, ?_⟩
    have hc := h c (by simp)
    rw [List.cons_append, splitBlank, if_neg (by simp [hc.1, hc.2]), e']
    rfl

theorem parts_sep (c : Char) (hc : c = ' ' ∨ c = '\t') (s : Str) : parts (c :: s) = parts s := by
  unfold parts
  rw [splitBlank, if_pos (by simpa using hc)]
  simp

/-- a word: non-empty, without white space -/
def IsWord (w : Str) : Prop := w ≠ [] ∧ ∀ c ∈ w, isSpace c = false

theorem IsWord.blank {w : Str} (h : IsWord w) : ∀ c ∈ w, c ≠ ' ' ∧ c ≠ '\t' := by
  intro c hc
  have := h.2 c hc
  simp [isSpace] at this
  exact this.1.1.1.1

theorem IsWord.not_blank {w : Str} (h : IsWord w) (q : Str) : (!(w ++ q).all isSpace) = true := by
  obtain ⟨c, w', rfl⟩ := List.exists_cons_of_ne_nil h.1
  have := h.2 c (by simp)
  simp [this]

theorem parts_word_sep {w : Str} (h : IsWord w) (c : Char) (hc : c = ' ' ∨ c = '\t') (s : Str) :
    parts (w ++ c :: s) = w :: parts s := by
  obtain ⟨p, ps, e, e'⟩ := splitBlank_word h.blank (c :: s)
  unfold parts
  rw [e']
  rw [splitBlank, if_pos (by simpa using hc)] at e
  injection e with e1 e2
  subst e1; subst e2
  rw [List.filter_cons, if_pos (h.not_blank [])]
  simp

theorem parts_word {w : Str} (h : IsWord w) : parts w = [w] := by
  obtain ⟨p, ps, e, e'⟩ := splitBlank_word h.blank []
  rw [List.append_nil] at e'
  unfold parts
  rw [e']
  rw [splitBlank] at e
  injection e with e1 e2
  subst e1; subst e2
  rw [List.filter_cons, if_pos (h.not_blank [])]
  simp

theorem splitNl_ne (s : Str) : splitNl s ≠ [] := by
  induction s with
  | nil => simp [splitNl]
  | cons c s ih =>
    unfold splitNl
    split
    · simp
    · split <;> simp

theorem splitNl_line {l : Str} (h : '\n' ∉ l) (s : Str) : splitNl (l ++ '\n' :: s) = l :: splitNl s := by
  induction l with
  | nil => rw [List.nil_append, splitNl, if_pos rfl]
  | cons c l ih =>
    rw [List.mem_cons, not_or] at h
    rw [List.cons_append, splitNl, if_neg (fun e => h.1 e.symm), ih h.2]

theorem getlines_line {l : Str} (h : '\n' ∉ l) (s : Str) : getlines (l ++ '\n' :: s) = l :: getlines s := by
  unfold getlines
  rw [splitNl_line h]
  dsimp only
  obtain ⟨p, ps, e⟩ := List.exists_cons_of_ne_nil (splitNl_ne s)
  rw [e, List.getLast?_cons_cons, List.dropLast_cons_of_ne_nil (by simp)]
  split <;> rfl

/-! ## the whole file -/

/-- lines outside of the filament block; `periods` lines set the number of field periods -/
inductive Outside : List Str → Option Int → Option Int → Prop
  | nil {n} : Outside [] n n
  | other {raw ls n m} : startsWith (strip raw) "periods".toList = false →
      startsWith (strip raw) "begin filament".toList = false → Outside ls n m → Outside (raw :: ls) n m
  | periods {raw ls n m a b k} : startsWith (strip raw) "periods".toList = true → parts (strip raw) = [a, b] →
      v.stoi b = some k → Outside ls (some k) m → Outside (raw :: ls) n m

theorem importLoop_outside {ls : List Str} {n m : Option Int} (h : Outside (v := v) ls n m) (rest : List Str)
    (k : Nat) (cs : List Circuit) :
    importLoop v (ls.length + k) (ls ++ rest) { num_field_periods := n, circuits := cs } =
      importLoop v k rest { num_field_periods := m, circuits := cs } := by
  induction h with
  | nil => simp
  | @other raw ls n m h1 h2 _ ih =>
    rw [List.length_cons, Nat.add_right_comm, List.cons_append, importLoop]
    simp only [h1, h2, Bool.false_eq_true, if_false]
    exact ih
  | @periods raw ls n m a b k' h1 h2 h3 _ ih =>
    rw [List.length_cons, Nat.add_right_comm, List.cons_append, importLoop]
    simp only [h1, h2, h3, if_true]
    exact ih

end Verif.Coils
