import Verif.Coils.Lemmas
import Verif.Common.Lawful
import Mathlib.Tactic.FieldSimp
import Mathlib.Tactic.NormNum
import Mathlib.Algebra.Order.Field.Rat

/-!
# C41: coils files and windings
-/
namespace Verif.Coils
open Verif

variable {v : Conv}

/-! ## import -/

/-- C41: the import of a filament block succeeds exactly if the block is a list of filaments (perhaps followed by
    points of an unfinished one) with uniform windings, and then the circuits are those of `group`: one per number in
    order of first appearance, with all its filaments in the order of the file. -/
theorem C41_block (nfp : Option Int) (ls rest : List Str) (cfg : Config) :
    parse v ls { coil_ids := [], pts := [], cfg := { num_field_periods := nfp, circuits := [] } } = .ok (cfg, rest) ↔
      ∃ (body : List Str) (e : Str) (rows : List Row) (fils : List Filament) (left : List Point),
        ls = body ++ e :: rest ∧ isMirror (strip e) = false ∧ isEnd (strip e) = true ∧ Body v body rows ∧
        rows = print fils ++ left.map Row.point ∧ (∀ f ∈ fils, f.Uniform) ∧
        cfg = { num_field_periods := nfp, circuits := group fils } := by
  have hr : Rep nfp { coil_ids := [], pts := [], cfg := { num_field_periods := nfp, circuits := [] } } [] [] :=
    ⟨rfl, rfl, rfl⟩
  constructor
  · intro h
    obtain ⟨body, e, rows, fils, left, h1, h2, h3, h4, h5, h6, h7⟩ := parse_sound ls _ [] [] hr h
    exact ⟨body, e, rows, fils, left, h1, h2, h3, h4, by simpa using h5, h6, by simpa using h7⟩
  · rintro ⟨body, e, rows, fils, left, rfl, h2, h3, h4, h5, h6, rfl⟩
    have := parse_complete (rest := rest) h2 h3 h4 _ [] [] hr fils left (by simpa using h5) h6
    simpa using this

/-- C41: the same for a whole file with one filament block: header and trailer only set the number of field periods -/
theorem C41_file {text b e : Str} {pre body post : List Str} {n m : Option Int} {rows : List Row}
    {fils : List Filament} {left : List Point}
    (ht : getlines text = pre ++ b :: (body ++ e :: post)) (hpre : Outside (v := v) pre none n)
    (hb : startsWith (strip b) "begin filament".toList = true) (hbody : Body v body rows)
    (hrows : rows = print fils ++ left.map Row.point) (hu : ∀ f ∈ fils, f.Uniform)
    (hm : isMirror (strip e) = false) (he : isEnd (strip e) = true) (hpost : Outside (v := v) post n m) :
    importMakegrid v text = .ok { num_field_periods := m, circuits := group fils } := by
  have hp : startsWith (strip b) "periods".toList = false := by
    unfold startsWith at hb ⊢
    cases h : strip b with
    | nil => rw [h] at hb; simp at hb
    | cons c s =>
      rw [h] at hb
      rcases hc : decide (c = 'p') with _ | _
      · have hc : c ≠ 'p' := by simpa using hc
        show List.isPrefixOf ('p' :: _) (c :: s) = false
        simp [List.isPrefixOf, Ne.symm hc]
      · have hc : c = 'p' := by simpa using hc
        subst hc
        exfalso
        have : ('b' == 'p') = false := by decide
        change (('b' == 'p') && _) = true at hb
        simp [this] at hb
  unfold importMakegrid
  rw [ht, List.length_append, importLoop_outside hpre, List.length_cons, importLoop]
  simp only [hb, hp, Bool.false_eq_true, if_false, if_true]
  rw [(C41_block (v := v) n (body ++ e :: post) post _).2 ⟨body, e, rows, fils, left, rfl, hm, he, hbody, hrows, hu, rfl⟩]
  simp only [Outcome.bind_ok]
  have hl : (body ++ e :: post).length = post.length + (body.length + 1) := by
    rw [List.length_append, List.length_cons]; omega
  have := importLoop_outside (v := v) hpost [] (body.length + 1) (group fils)
  rw [List.append_nil] at this
  rw [hl, this, importLoop]

theorem sum_one {ids : List Int} (hn : ids.Nodup) {a : Int} (ha : a ∈ ids) :
    (ids.map fun i => if i = a then 1 else 0).sum = 1 := by
  induction ids with
  | nil => cases ha
  | cons x ids ih =>
    rw [List.nodup_cons] at hn
    rw [List.map_cons, List.sum_cons]
    by_cases e : x = a
    · subst e
      have : (ids.map fun i => if i = x then 1 else 0) = ids.map fun _ => 0 :=
        List.map_congr_left fun i hi => if_neg fun (e : i = x) => hn.1 (e ▸ hi)
      rw [this]
      simp
    · rw [if_neg e, ih hn.2 (by simpa [Ne.symm e] using ha)]

/-- C41: no filament is lost, and none is invented: the coils of the circuits are the coils of the filaments -/
theorem C41_nothing_lost (fils : List Filament) :
    (∀ f ∈ fils, ∃ c ∈ group fils, f.coil ∈ c.coils) ∧
    ((group fils).map fun c => c.coils.length).sum = fils.length ∧
    ∀ c ∈ group fils, c.coils ≠ [] ∧ c.current = some (.fin 1) ∧ ∀ k ∈ c.coils, k.windings ≠ none := by
  refine ⟨fun f hf => ?_, ?_, ?_⟩
  · refine ⟨_, List.mem_map.2 ⟨f.id, List.mem_eraseDups.2 (List.mem_map_of_mem hf), rfl⟩, ?_⟩
    exact List.mem_map.2 ⟨f, List.mem_filter.2 ⟨hf, by simp⟩, rfl⟩
  · have key : ∀ (ids : List Int) (fs : List Filament), ids.Nodup → (∀ f ∈ fs, f.id ∈ ids) →
        (ids.map fun i => (fs.filter fun f => f.id = i).length).sum = fs.length := by
      intro ids fs hn
      induction fs with
      | nil => intro _; simp
      | cons f fs ih =>
        intro h
        have ih := ih fun g hg => h g (by simp [hg])
        have hf := h f (by simp)
        have : (ids.map fun i => ((f :: fs).filter fun f => f.id = i).length) =
            ids.map fun i => (fs.filter fun f => f.id = i).length + if i = f.id then 1 else 0 := by
          refine List.map_congr_left fun i _ => ?_
          by_cases e : f.id = i
          · simp [e]
          · simp [e, Ne.symm e]
        rw [this, List.sum_map_add, ih, List.length_cons]
        congr 1
        exact sum_one hn hf
    have := key (circuitIds fils) fils (ids_nodup _)
      fun f hf => List.mem_eraseDups.2 (List.mem_map_of_mem hf)
    rw [← this]
    unfold group
    simp [Function.comp_def]
  · intro c hc
    obtain ⟨i, hi, rfl⟩ := List.mem_map.1 hc
    refine ⟨?_, rfl, ?_⟩
    · obtain ⟨f, hf, rfl⟩ := List.mem_map.1 (List.mem_eraseDups.1 hi)
      intro h
      have : f.coil ∈ ((fils.filter fun g => g.id = f.id).map Filament.coil) :=
        List.mem_map.2 ⟨f, List.mem_filter.2 ⟨hf, by simp⟩, rfl⟩
      have h : ((fils.filter fun g => g.id = f.id).map Filament.coil) = [] := h
      rw [h] at this
      cases this
    · intro k hk
      obtain ⟨f, -, rfl⟩ := List.mem_map.1 hk
      simp [Filament.coil]

/-- C41: importing never accesses a circuit that does not exist, whatever the text -/
theorem C41_import_defined (text : Str) : (importMakegrid v text).Defined := importLoop_defined _ _ _

/-- C41: columns are the words of a line: any number of blanks and tabs between and around them does not matter -/
theorem C41_columns {ws : List (Str × Str)} {lead : Str} (hw : ∀ p ∈ ws, IsWord p.1)
    (hs : ∀ p ∈ ws, p.2 ≠ [] ∧ ∀ c ∈ p.2, c = ' ' ∨ c = '\t') (hl : ∀ c ∈ lead, c = ' ' ∨ c = '\t') :
    parts (lead ++ ws.flatMap fun p => p.1 ++ p.2) = ws.map Prod.fst := by
  have skip : ∀ (b s : Str), (∀ c ∈ b, c = ' ' ∨ c = '\t') → parts (b ++ s) = parts s := by
    intro b s hb
    induction b with
    | nil => rfl
    | cons c b ih => rw [List.cons_append, parts_sep c (hb c (by simp)), ih fun c hc => hb c (by simp [hc])]
  rw [skip _ _ hl]
  induction ws with
  | nil => rfl
  | cons p ws ih =>
    obtain ⟨w, b⟩ := p
    obtain ⟨hb, hb'⟩ := hs (w, b) (by simp)
    dsimp only at hb hb'
    obtain ⟨c, b', rfl⟩ := List.exists_cons_of_ne_nil hb
    rw [List.flatMap_cons, List.append_assoc, List.cons_append, parts_word_sep (hw (w, c :: b') (by simp)) c (hb' c (by simp)),
      skip b' _ (fun c hc => hb' c (by simp [hc])), List.map_cons,
      ih (fun p hp => hw p (by simp [hp])) (fun p hp => hs p (by simp [hp]))]

/-! ## windings -/

/-- the circuit has coils, all windings are set and finite, those of the first are not zero, and the current is finite -/
structure Wound (c : Circuit) : Prop where
  current : ∃ i, c.current = some (.fin i)
  coils : ∃ k l, c.coils = k :: l ∧ ∃ w, k.windings = some (.fin w) ∧ w ≠ 0
  windings : ∀ k ∈ c.coils, ∃ w, k.windings = some (.fin w)

/-- product of circuit current and windings, for each coil -/
def turns (c : Circuit) : List D := c.coils.map fun k => D.mul c.cur k.num_windings

theorem migrate_ok {c : Circuit} (h : Wound c) : ∃ c', migrate c = .ok c' ∧ Wound c' ∧ turns c' = turns c ∧
    c'.coils.map Coil.carriers = c.coils.map Coil.carriers ∧
    (∃ k l, c'.coils = k :: l ∧ k.windings = some (.fin 1)) ∧ migrate c' = .ok c' ∧
    ∀ n m, sources { num_field_periods := n, circuits := [c'] } = sources { num_field_periods := m, circuits := [c] } := by
  obtain ⟨i, hi⟩ := h.current
  obtain ⟨k0, l, hc, w0, hw0, hne⟩ := h.coils
  have hw := h.windings
  let W : Coil → ℚ := fun k => match k.windings with | some (.fin w) => w | _ => 0
  have hW : ∀ k ∈ c.coils, k.windings = some (.fin (W k)) := by
    intro k hk
    obtain ⟨w, e⟩ := hw k hk
    simp only [W, e]
  have hW0 : W k0 = w0 := by simp only [W, hw0]
  let c' : Circuit :=
    { current := some (.fin (i * w0)), coils := c.coils.map fun k => { k with windings := some (.fin (W k / w0)) } }
  have hm : ∀ k ∈ c.coils, div k.num_windings (.fin w0) = .fin (W k / w0) := by
    intro k hk
    unfold Coil.num_windings
    rw [hW k hk]
    simp [div, hne]
  have e1 : migrate c = .ok c' := by
    have : migrate c = .ok { current := some (D.mul c.cur k0.num_windings)
                             coils := c.coils.map fun k => { k with windings := some (div k.num_windings k0.num_windings) } } := by
      unfold migrate
      rw [hc]
    rw [this]
    have e0 : k0.num_windings = .fin w0 := by unfold Coil.num_windings; rw [hw0]; rfl
    have ec : c.cur = .fin i := by unfold Circuit.cur; rw [hi]; rfl
    rw [e0, ec]
    refine congrArg Outcome.ok ?_
    show Circuit.mk _ _ = c'
    simp only [c']
    refine congrArg₂ Circuit.mk rfl (List.map_congr_left fun k hk => ?_)
    rw [hm k hk]
  have hcons : c'.coils = { k0 with windings := some (.fin 1) } :: l.map fun k => { k with windings := some (.fin (W k / w0)) } := by
    simp only [c']
    rw [hc, List.map_cons, hW0, div_self hne]
  refine ⟨c', e1, ⟨⟨_, rfl⟩, ⟨_, _, hcons, 1, rfl, one_ne_zero⟩, ?_⟩, ?_, ?_, ⟨_, _, hcons, rfl⟩, ?_, ?_⟩
  · intro k hk
    obtain ⟨k', -, rfl⟩ := List.mem_map.1 hk
    exact ⟨_, rfl⟩
  · unfold turns
    simp only [c', List.map_map]
    refine List.map_congr_left fun k hk => ?_
    have ec : c.cur = .fin i := by unfold Circuit.cur; rw [hi]; rfl
    unfold Coil.num_windings
    rw [ec, hW k hk]
    simp only [Function.comp_apply, Circuit.cur, Option.getD_some, D.mul]
    congr 1
    field_simp
  · simp only [c', List.map_map]
    rfl
  · unfold migrate
    rw [hcons]
    simp only [Coil.num_windings, Circuit.cur, c', Option.getD_some, D.mul, mul_one, List.map_cons, List.map_map]
    congr 2
    rw [hc, List.map_cons, hW0, div_self hne]
    congr 1
    · simp [div]
    · refine List.map_congr_left fun k _ => ?_
      simp [div]
  · intro n m
    unfold sources
    simp only [List.flatMap_cons, List.flatMap_nil, List.append_nil, hi, c']
    by_cases h0 : i = 0
    · subst h0; simp [isZero]
    · have : i * w0 ≠ 0 := mul_ne_zero h0 hne
      simp only [isZero, h0, this, decide_false, Bool.false_eq_true, if_false, List.flatMap_map]
      refine List.flatMap_congr fun k hk => ?_
      refine List.map_congr_left fun t _ => ?_
      unfold coilCurrent
      rw [hW k hk]
      simp only [D.mul]
      congr 2
      field_simp

/-- the circuits can be normalised -/
def AllWound (cfg : Config) : Prop := ∀ c ∈ cfg.circuits, Wound c

/-- C41: normalising the windings succeeds, keeps current times windings of every coil and the geometry, makes the
    first coil of every circuit have one winding, and a second normalisation changes nothing. -/
theorem C41_windings {cfg : Config} (h : AllWound cfg) : ∃ cfg', numWindingsToCircuitCurrents cfg = .ok cfg' ∧
    cfg'.num_field_periods = cfg.num_field_periods ∧
    cfg'.circuits.map turns = cfg.circuits.map turns ∧
    cfg'.circuits.map (fun c => c.coils.map Coil.carriers) = cfg.circuits.map (fun c => c.coils.map Coil.carriers) ∧
    (∀ c ∈ cfg'.circuits, ∃ k l, c.coils = k :: l ∧ k.windings = some (.fin 1)) ∧
    numWindingsToCircuitCurrents cfg' = .ok cfg' ∧ sources cfg' = sources cfg := by
  obtain ⟨n, cs⟩ := cfg
  have key : ∀ cs : List Circuit, (∀ c ∈ cs, Wound c) → ∃ cs', cs.mapM migrate = .ok cs' ∧
      cs'.map turns = cs.map turns ∧
      cs'.map (fun c => c.coils.map Coil.carriers) = cs.map (fun c => c.coils.map Coil.carriers) ∧
      (∀ c ∈ cs', ∃ k l, c.coils = k :: l ∧ k.windings = some (.fin 1)) ∧
      cs'.mapM migrate = .ok cs' ∧
      sources { num_field_periods := n, circuits := cs' } = sources { num_field_periods := n, circuits := cs } := by
    intro cs
    induction cs with
    | nil => intro _; exact ⟨[], rfl, rfl, rfl, by simp, rfl, rfl⟩
    | cons c cs ih =>
      intro h
      obtain ⟨cs', h1, h2, h3, h4, h5, h6⟩ := ih fun c hc => h c (by simp [hc])
      obtain ⟨c', g1, -, g2, g3, g4, g5, g6⟩ := migrate_ok (h c (by simp))
      refine ⟨c' :: cs', ?_, by simp [h2, g2], by simp [h3, g3], ?_, ?_, ?_⟩
      · rw [List.mapM_cons, g1, h1]; rfl
      · intro d hd
        rcases List.mem_cons.1 hd with rfl | hd
        · exact g4
        · exact h4 d hd
      · rw [List.mapM_cons, g5, h5]; rfl
      · have g6 := g6 n n
        unfold sources at g6 h6 ⊢
        simp only [List.flatMap_cons, List.flatMap_nil, List.append_nil] at g6 h6 ⊢
        rw [g6, h6]
  obtain ⟨cs', h1, h2, h3, h4, h5, h6⟩ := key cs h
  refine ⟨{ num_field_periods := n, circuits := cs' }, ?_, rfl, h2, h3, h4, ?_, h6⟩
  · unfold numWindingsToCircuitCurrents; dsimp only; rw [h1]; rfl
  · unfold numWindingsToCircuitCurrents; dsimp only; rw [h5]; rfl

/-- C41: a file whose filaments have finite non-zero windings can be normalised -/
theorem C41_imported_wound {fils : List Filament} {n : Option Int}
    (h : ∀ f ∈ fils, ∃ w, f.windings = .fin w ∧ w ≠ 0) :
    AllWound { num_field_periods := n, circuits := group fils } := by
  intro c hc
  have hne := ((C41_nothing_lost fils).2.2 c hc).1
  obtain ⟨i, hi, rfl⟩ := List.mem_map.1 hc
  have hk : ∀ k ∈ ((fils.filter fun f => f.id = i).map Filament.coil), ∃ w, k.windings = some (.fin w) ∧ w ≠ 0 := by
    intro k hk
    obtain ⟨f, hf, rfl⟩ := List.mem_map.1 hk
    obtain ⟨w, e, hw⟩ := h f (List.mem_filter.1 hf).1
    exact ⟨w, by unfold Filament.coil; rw [e], hw⟩
  refine ⟨⟨1, rfl⟩, ?_, ?_⟩
  · obtain ⟨k, l, e⟩ := List.exists_cons_of_ne_nil hne
    obtain ⟨w, e', hw⟩ := hk k (by dsimp only at e; rw [e]; simp)
    exact ⟨k, l, e, w, e', hw⟩
  · intro k hk'
    obtain ⟨w, e, -⟩ := hk k hk'
    exact ⟨w, e⟩

/-! ## where the full statement fails -/

/-- a conversion for concrete cases: decimal digits -/
def digits (s : Str) : Option Nat :=
  if s ≠ [] ∧ s.all Char.isDigit then some (s.foldl (fun n c => 10 * n + (c.toNat - 48)) 0) else none

def demo : Conv where
  stod s := (digits s).map fun n => .fin n
  stoi s := (digits s).map fun n => n

/-- points that are followed by `end` instead of a line with circuit number and name disappear without an error -/
theorem C41_unfinished_filament_dropped :
    importMakegrid demo "begin filament\n1 2 3 4\n5 6 7 4\nend\n".toList =
      .ok { num_field_periods := none, circuits := [] } := by decide +kernel

/-- two blocks with the same circuit numbers: the numbers of the second block index the circuits of the first, so a
    filament of circuit 8 is filed with circuit 7 -/
theorem C41_second_block_misfiled :
    ∃ k7 k8 k8', importMakegrid demo
        ("begin filament\n1 0 0 4 7 a\nend\nbegin filament\n2 0 0 5 8 b\n3 0 0 6 8 c\nend\n".toList) =
      .ok { num_field_periods := none
            circuits := [{ current := some (.fin 1), coils := [k7, k8'] }, { current := some (.fin 1), coils := [k8] }] } ∧
      k7.carriers = [.circular "a".toList (.fin 1) (.fin 0, .fin 0, .fin 0) (.fin 0, .fin 0, .fin 1)] ∧
      k8.carriers = [.circular "b".toList (.fin 2) (.fin 0, .fin 0, .fin 0) (.fin 0, .fin 0, .fin 1)] ∧
      k8'.carriers = [.circular "c".toList (.fin 3) (.fin 0, .fin 0, .fin 0) (.fin 0, .fin 0, .fin 1)] := by
  refine ⟨⟨some (.fin 4), _⟩, ⟨some (.fin 5), _⟩, ⟨some (.fin 6), _⟩, ?_, rfl, rfl, rfl⟩
  decide +kernel

/-- a circuit without coils is read at `coils(0)` -/
theorem C41_empty_circuit_ub (n cur : Option _) :
    numWindingsToCircuitCurrents { num_field_periods := n, circuits := [{ current := cur, coils := [] }] } =
      .ub "coils(0)" := rfl

/-- a first filament with zero windings: division by zero. The second filament of the circuit, which carries
    current 1 x 3, gets current 0 x infinity. -/
theorem C41_zero_windings_divide :
    ∃ cfg cfg', importMakegrid demo "begin filament\n1 0 0 0 7 a\n2 0 0 3 7 b\nend\n".toList = .ok cfg ∧
      numWindingsToCircuitCurrents cfg = .ok cfg' ∧
      (cfg'.circuits.map fun c => c.coils.map fun k => k.windings) = [[some .nan, some .pinf]] ∧
      cfg.circuits.map turns = [[.fin 0, .fin 3]] ∧ cfg'.circuits.map turns = [[.nan, .nan]] := by
  refine ⟨⟨none, [⟨some (.fin 1), [⟨some (.fin 0), [.circular "a".toList (.fin 1) (.fin 0, .fin 0, .fin 0) (.fin 0, .fin 0, .fin 1)]⟩,
      ⟨some (.fin 3), [.circular "b".toList (.fin 2) (.fin 0, .fin 0, .fin 0) (.fin 0, .fin 0, .fin 1)]⟩]⟩]⟩, _, ?_, rfl, ?_, ?_, ?_⟩
  all_goals decide +kernel

/-- windings that are not set count as one for the field but as zero for the normalisation: the field of the second
    coil is lost -/
theorem C41_unset_windings_lost (t : Carrier) (ht : t ≠ .notSet) :
    ∃ cfg cfg', cfg.circuits = [{ current := some (.fin 5)
                                  coils := [⟨some (.fin 2), [t]⟩, ⟨none, [t]⟩] }] ∧
      numWindingsToCircuitCurrents cfg = .ok cfg' ∧
      sources cfg = [(t, .fin 10), (t, .fin 5)] ∧ sources cfg' = [(t, .fin 10), (t, .fin 0)] := by
  refine ⟨⟨none, _⟩, _, rfl, rfl, ?_, ?_⟩ <;>
    (simp [sources, isZero, coilCurrent, ht, D.mul, Circuit.cur, Coil.num_windings, div]; try norm_num)

/-! ## concrete cases -/

/-- a file with header, mirror line, a circle and two polygons in two circuits -/
example : importMakegrid demo
    ("periods 5\nbegin filament\nmirror NIL\n1 0 0 4\n0 1 0 4\n1 0 0 0 7 a\n  3 0 2 5 9 ring\n" ++
     "1 1 0\t4\n2 1 0 4\n1 1 0 0 7 b\nend\n").toList =
    .ok { num_field_periods := some 5
          circuits :=
            [{ current := some (.fin 1)
               coils := [⟨some (.fin 4), [.polygon "a".toList [(.fin 1, .fin 0, .fin 0), (.fin 0, .fin 1, .fin 0), (.fin 1, .fin 0, .fin 0)]]⟩,
                 ⟨some (.fin 4), [.polygon "b".toList [(.fin 1, .fin 1, .fin 0), (.fin 2, .fin 1, .fin 0), (.fin 1, .fin 1, .fin 0)]]⟩] },
             { current := some (.fin 1)
               coils := [⟨some (.fin 5), [.circular "ring".toList (.fin 3) (.fin 0, .fin 0, .fin 2) (.fin 0, .fin 0, .fin 1)]⟩] }] } := by
  decide +kernel

/-- the hypotheses of `C41_file` for a small file -/
example : importMakegrid demo "periods 5\nbegin filament\nmirror NIL\n3 0 2 5 9 ring\nend\n".toList =
    .ok { num_field_periods := some 5
          circuits := group [{ id := 9, name := "ring".toList, init := [], final := ⟨.fin 3, .fin 0, .fin 2, .fin 5⟩ }] } := by
  refine C41_file (pre := ["periods 5".toList]) (b := "begin filament".toList)
    (body := ["mirror NIL".toList, "3 0 2 5 9 ring".toList]) (e := "end".toList) (post := []) (n := some 5)
    (rows := [.last ⟨.fin 3, .fin 0, .fin 2, .fin 5⟩ 9 "ring".toList]) (left := [])
    (by decide +kernel) ?_ (by decide +kernel) ?_ rfl ?_ (by decide +kernel) (by decide +kernel) .nil
  · exact .periods (by decide +kernel) (a := "periods".toList) (b := "5".toList) (by decide +kernel)
      (by decide +kernel) .nil
  · exact .mirror (by decide +kernel) (by decide +kernel) <|
      .row (by decide +kernel) (by decide +kernel)
        (.six (a := "3".toList) (b := "0".toList) (c := "2".toList) (d := "5".toList) (i := "9".toList)
          (by decide +kernel) (by decide +kernel) (by decide +kernel) (by decide +kernel) (by decide +kernel)
          (by decide +kernel)) .nil
  · intro f hf
    rw [List.mem_singleton] at hf
    subst hf
    intro p0 h
    simp at h

/-- differing windings are rejected -/
example : importMakegrid demo "begin filament\n1 0 0 4\n0 1 0 3\n1 0 0 0 7 a\nend\n".toList =
    .status "number of windings different" := by decide +kernel

/-- two coils with 4 and 6 windings in a circuit with current 5 -/
example : AllWound { num_field_periods := none, circuits := [{ current := some (.fin 5), coils := [⟨some (.fin 4), []⟩, ⟨some (.fin 6), []⟩] }] } := by
  intro c hc
  rw [List.mem_singleton] at hc
  subst hc
  refine ⟨⟨5, rfl⟩, ⟨_, _, rfl, 4, rfl, by norm_num⟩, ?_⟩
  intro k hk
  simp only [List.mem_cons, List.not_mem_nil, or_false] at hk
  rcases hk with rfl | rfl
  · exact ⟨4, rfl⟩
  · exact ⟨6, rfl⟩

example : numWindingsToCircuitCurrents
    { num_field_periods := none
      circuits := [{ current := some (.fin 5), coils := [⟨some (.fin 4), []⟩, ⟨some (.fin 6), []⟩] }] } =
    .ok { num_field_periods := none
          circuits := [{ current := some (.fin 20), coils := [⟨some (.fin 1), []⟩, ⟨some (.fin (3 / 2)), []⟩] }] } := by
  decide +kernel

end Verif.Coils
