import Verif.OutputIo.Wout
import Verif.OutputIo.Old

/-!
# C112: saving and loading the outputs
-/
namespace Verif.OutputIo
open Verif Verif.Indata

/-- the keys of the groups -/
def keys (cs : List (String × List (String × Kind) × List Step)) : List String := cs.map Prod.fst

theorem saveAll_ok (o : String → Obj) (cs : List (String × List (String × Kind) × List Step)) (f : File) (hk : (keys cs).Nodup)
    (hn : ∀ c ∈ cs, (names c.2.1).Nodup) (hs : ∀ c ∈ cs, ∀ x ∈ names c.2.1, Storable (o c.1 x))
    (hg : ∀ g ∈ keys cs, g ∉ f.groups ∧ ∀ x, f.data g x = none) :
    ∃ f', saveAll o cs f = .ok f' ∧ (∀ c ∈ cs, ∀ x ∈ names c.2.1, f'.data c.1 x = some (o c.1 x)) ∧
      (∀ g, g ∉ keys cs → ∀ x, f'.data g x = f.data g x) := by
  induction cs generalizing f with
  | nil => exact ⟨f, rfl, by simp, fun _ _ _ => rfl⟩
  | cons c cs ih =>
    obtain ⟨g, t, ss⟩ := c
    simp only [keys, List.map_cons, List.nodup_cons, List.mem_cons] at hk hg
    have e := writeTo_ok g (o g) t f (hn _ (List.mem_cons_self ..)) (hs _ (List.mem_cons_self ..)) (hg g (Or.inl rfl)).1
      (fun x _ => (hg g (Or.inl rfl)).2 x)
    simp only [saveAll]
    rw [e, Outcome.bind_ok]
    obtain ⟨f', h1, h2, h3⟩ := ih ⟨g :: f.groups, fun g' x' => if g' = g ∧ x' ∈ names t then some (o g x') else f.data g' x'⟩ hk.2
      (fun c hc => hn c (List.mem_cons_of_mem _ hc)) (fun c hc => hs c (List.mem_cons_of_mem _ hc)) (by
        intro g' hg'
        have hne : g' ≠ g := by
          rintro rfl
          exact hk.1 hg'
        refine ⟨?_, fun x => ?_⟩
        · simp only [List.mem_cons, not_or]
          exact ⟨hne, (hg g' (Or.inr hg')).1⟩
        · simp only [hne, false_and, if_false]
          exact (hg g' (Or.inr hg')).2 x)
    refine ⟨f', h1, ?_, ?_⟩
    · intro c hc x hx
      rcases List.mem_cons.1 hc with rfl | hc
      · rw [h3 g hk.1]
        simp only [true_and]
        rw [if_pos hx]
      · exact h2 c hc x hx
    · intro g' hg' x
      simp only [keys, List.map_cons, List.mem_cons, not_or] at hg'
      rw [h3 g' hg'.2]
      simp only [hg'.1, false_and, if_false]

theorem loadAll_ok (stod : String → Outcome D) (f : File) (out : String → Obj) (cs : List (String × List (String × Kind) × List Step))
    (m : String → Obj) (hk : (keys cs).Nodup)
    (hs : ∀ c ∈ cs, ∀ m : Obj, run stod (f.data c.1) c.2.2 m = .ok (override (c.2.2.flatMap targets) (out c.1) m)) :
    ∃ m', loadAll stod f cs m = .ok m' ∧ (∀ c ∈ cs, m' c.1 = override (c.2.2.flatMap targets) (out c.1) (m c.1)) ∧
      ∀ g, g ∉ keys cs → m' g = m g := by
  induction cs generalizing m with
  | nil => exact ⟨m, rfl, by simp, fun _ _ => rfl⟩
  | cons c cs ih =>
    obtain ⟨g, t, ss⟩ := c
    simp only [keys, List.map_cons, List.nodup_cons] at hk
    simp only [loadAll]
    rw [hs (g, t, ss) (List.mem_cons_self ..) (m g), Outcome.bind_ok]
    obtain ⟨m', h1, h2, h3⟩ := ih (fun g' => if g' = g then override (ss.flatMap targets) (out g) (m g) else m g') hk.2
      (fun c hc => hs c (List.mem_cons_of_mem _ hc))
    refine ⟨m', h1, ?_, ?_⟩
    · intro c hc
      rcases List.mem_cons.1 hc with rfl | hc
      · rw [h3 g hk.1]
        simp
      · rw [h2 c hc]
        have hne : c.1 ≠ g := by
          intro h
          exact hk.1 (h ▸ List.mem_map.2 ⟨c, hc, rfl⟩)
        simp only [hne, if_false]
    · intro g' hg'
      simp only [keys, List.map_cons, List.mem_cons, not_or] at hg'
      rw [h3 g' hg'.2]
      simp only [hg'.1, if_false]

/-- a statement of the classes other than `wout` -/
def legitPlain (t : List (String × Kind)) : Step → Bool
  | .member x k => (x, k) ∈ t
  | .orZeros x _ => (x, .doubles) ∈ t
  | _ => false

theorem plain_sound (stod : String → Outcome D) {t : List (String × Kind)} {o : Obj} (ht : Typed t o) {f : String → Option Val}
    (hf : ∀ x ∈ names t, f x = some (o x)) (s : Step) (hs : legitPlain t s = true) : Sound stod f o s := by
  intro m _
  have hmem : ∀ x k, (x, k) ∈ t → x ∈ names t := fun x k h => List.mem_map.2 ⟨(x, k), h, rfl⟩
  cases s with
  | member x k =>
    simp only [legitPlain, decide_eq_true_eq] at hs
    exact readMember_sound m (hf x (hmem x k hs)) (ht _ hs)
  | orZeros x ref =>
    simp only [legitPlain, decide_eq_true_eq] at hs
    simp only [exec]
    rw [if_pos (by rw [hf x (hmem x _ hs)]; rfl)]
    exact readMember_sound m (hf x (hmem x _ hs)) (ht _ hs)
  | _ => simp [legitPlain] at hs

theorem classes_keys : (keys classes).Nodup := by decide +kernel

theorem classes_names : ∀ c ∈ classes, (names c.2.1).Nodup := by decide +kernel

theorem classes_steps : ∀ c ∈ classes, c.1 ≠ "/wout" → (∀ s ∈ c.2.2, legitPlain c.2.1 s = true) ∧ ordered [] c.2.2 = true := by
  decide +kernel

theorem classes_wout : ∀ c ∈ classes, c.1 = "/wout" → c.2.1 = wOutFileContents ∧ c.2.2 = woutSteps := by
  intro c hc h
  simp only [classes, List.mem_cons, List.not_mem_nil, or_false] at hc
  rcases hc with rfl | rfl | rfl | rfl | rfl | rfl | rfl | rfl | rfl | rfl | rfl | rfl | rfl | rfl | rfl | rfl | rfl | rfl <;>
    first | exact absurd h (by decide) | exact ⟨rfl, rfl⟩

theorem classes_targets : ∀ c ∈ classes, (∀ x ∈ c.2.2.flatMap targets, x ∈ names c.2.1) ∧ ∀ x ∈ names c.2.1, x ∈ c.2.2.flatMap targets := by
  decide +kernel

/-- outputs that can be written: of the types of the members, without NUL characters and lists of strings, `wout` as computed -/
structure Outputs (o : String → Obj) (ns mnmax nyq : Int) (free : Bool) : Prop where
  typed : ∀ c ∈ classes, Typed c.2.1 (o c.1)
  storable : ∀ c ∈ classes, ∀ x ∈ names c.2.1, Storable (o c.1 x)
  wout : Wout (o "/wout") ns mnmax nyq free

/-- **C112**: what loading a saved file gives, for all outputs and whatever the receiving object held: all members that are written come
back, except that in `wout` the currents of a fixed-boundary run are dropped and the arrays that have as many modes as surfaces are
transposed; the members that are not written are those of the receiving object -/
theorem C112_result (stod : String → Outcome D) (o m : String → Obj) {ns mnmax nyq : Int} {free : Bool} (h : Outputs o ns mnmax nyq free) :
    ∃ f m', save o = .ok f ∧ load stod f m = .ok m' ∧
      (∀ c ∈ classes, c.1 ≠ "/wout" → ∀ x ∈ names c.2.1, m' c.1 x = o c.1 x) ∧
      (∀ x ∈ names wOutFileContents, m' "/wout" x = got (o "/wout") ns free x) ∧
      (∀ c ∈ classes, ∀ x, x ∉ names c.2.1 → m' c.1 x = m c.1 x) := by
  obtain ⟨f, h1, h2, _⟩ := saveAll_ok o classes emptyFile classes_keys classes_names h.storable (fun g _ => ⟨by simp [emptyFile], fun _ => rfl⟩)
  have hout : ∀ c ∈ classes, ∀ m : Obj, run stod (f.data c.1) c.2.2 m =
      .ok (override (c.2.2.flatMap targets) ((fun g => if g = "/wout" then got (o "/wout") ns free else o g) c.1) m) := by
    intro c hc m
    by_cases hw : c.1 = "/wout"
    · obtain ⟨e1, e2⟩ := classes_wout c hc hw
      rw [e2, hw]
      simp only [if_true]
      refine run_sound stod _ _ _ [] m wout_ordered (fun s hs => wout_sound stod h.wout ?_ s (wout_legit s hs)) (by simp)
      intro x hx
      have := h2 c hc x (by rw [e1]; exact hx)
      rw [hw] at this
      exact this
    · obtain ⟨e1, e2⟩ := classes_steps c hc hw
      simp only [hw, if_false]
      exact run_sound stod _ _ _ [] m e2 (fun s hs => plain_sound stod (h.typed c hc) (h2 c hc) s (e1 s hs)) (by simp)
  obtain ⟨m', h4, h5, _⟩ := loadAll_ok stod f (fun g => if g = "/wout" then got (o "/wout") ns free else o g) classes m classes_keys hout
  refine ⟨f, m', h1, h4, ?_, ?_, ?_⟩
  · intro c hc hw x hx
    rw [h5 c hc]
    simp only [override, hw, if_false]
    rw [if_pos ((classes_targets c hc).2 x hx)]
  · intro x hx
    have hc : ("/wout", wOutFileContents, woutSteps) ∈ classes := by simp [classes]
    rw [h5 _ hc]
    simp only [override, if_true]
    rw [if_pos (wout_targets.2 x hx)]
  · intro c hc x hx
    rw [h5 c hc]
    simp only [override]
    rw [if_neg fun h' => hx ((classes_targets c hc).1 x h')]

theorem got_same {o : Obj} {ns mnmax nyq : Int} {free : Bool} (w : Wout o ns mnmax nyq free) (h1 : mnmax ≠ ns) (h2 : nyq ≠ ns)
    (h3 : free = false → o "nextcur" = .int 0 ∧ o "extcur" = .doubles []) (x : String) : got o ns free x = o x := by
  have ht : ∀ mn, mn ≠ ns → (∃ a, o x = .matrix a ∧ Sized a mn ns) → turn ns (o x) = o x := by
    rintro mn hmn ⟨a, ha, hz⟩
    have := w.surfaces
    rw [ha]
    simp only [turn]
    rw [if_neg]
    rcases hz with hz | hz <;> omega
  unfold got
  split_ifs with c1 c2 c3
  · rw [c1.2, (h3 c1.1).1]
  · rw [c2.2, (h3 c2.1).2]
  · rcases c3 with c3 | c3
    · exact ht mnmax h1 (w.geometry x c3)
    · exact ht nyq h2 (w.fields x c3)
  · rfl

/-- **C112**: saving and loading gives back every member that is written if the number of surfaces is neither of the two numbers of
modes and a fixed-boundary run has no currents. Missing for the full claim: the other cases, see `C112_square_fails` and
`C112_currents_fails`, and the members that are not written, see `C112_unsaved_fails` -/
theorem C112_roundtrip_partial (stod : String → Outcome D) (o m : String → Obj) {ns mnmax nyq : Int} {free : Bool}
    (h : Outputs o ns mnmax nyq free) (h1 : mnmax ≠ ns) (h2 : nyq ≠ ns)
    (h3 : free = false → o "/wout" "nextcur" = .int 0 ∧ o "/wout" "extcur" = .doubles []) :
    ∃ f m', save o = .ok f ∧ load stod f m = .ok m' ∧ ∀ c ∈ classes, ∀ x ∈ names c.2.1, m' c.1 x = o c.1 x := by
  obtain ⟨f, m', a, b, c, d, _⟩ := C112_result stod o m h
  refine ⟨f, m', a, b, fun p hp x hx => ?_⟩
  by_cases hw : p.1 = "/wout"
  · rw [hw, d x (by rw [← (classes_wout p hp hw).1]; exact hx), got_same h.wout h1 h2 h3]
  · exact c p hp hw x hx

/-- **C112**, negation: if there are as many modes as surfaces, the arrays of the geometry come back transposed -/
theorem C112_square_fails (stod : String → Outcome D) (o m : String → Obj) {ns mnmax nyq : Int} {free : Bool}
    (h : Outputs o ns mnmax nyq free) (h1 : mnmax = ns) (x : String) (hx : x ∈ geometryArrays) (a : Mat D) (ha : o "/wout" x = .matrix a)
    (hr : a.rows = mnmax) :
    ∃ f m', save o = .ok f ∧ load stod f m = .ok m' ∧ m' "/wout" x = .matrix (transpose a) := by
  obtain ⟨f, m', e1, e2, _, d, _⟩ := C112_result stod o m h
  have hn : ∀ x ∈ geometryArrays, x ∈ names wOutFileContents ∧ x ≠ "nextcur" ∧ x ≠ "extcur" := by decide +kernel
  refine ⟨f, m', e1, e2, ?_⟩
  rw [d x (hn x hx).1, got_array (Or.inl hx) (hn x hx).2.1 (hn x hx).2.2, ha]
  simp only [turn]
  rw [if_pos (hr.trans h1)]

/-- **C112**, negation: the coil currents of a fixed-boundary run are lost -/
theorem C112_currents_fails (stod : String → Outcome D) (o m : String → Obj) {ns mnmax nyq : Int} (h : Outputs o ns mnmax nyq false) :
    ∃ f m', save o = .ok f ∧ load stod f m = .ok m' ∧ m' "/wout" "nextcur" = .int 0 ∧ m' "/wout" "extcur" = .doubles [] := by
  obtain ⟨f, m', e1, e2, _, d, _⟩ := C112_result stod o m h
  refine ⟨f, m', e1, e2, ?_, ?_⟩
  · rw [d _ (by decide +kernel)]
    simp [got]
  · rw [d _ (by decide +kernel)]
    simp [got]

/-- the members of `WOutFileContents` that are not saved, `output_quantities.h:990-1189` -/
def unsaved : List String := ["input_extension", "lrfp", "itfsq", "fsqt", "force_residual_r", "force_residual_z", "force_residual_lambda",
  "delbsq", "restart_reason_timetrace", "wdot", "bdotb"]

/-- **C112**, negation: eleven members are not saved and stay what they were in the receiving object -/
theorem C112_unsaved_fails (stod : String → Outcome D) (o m : String → Obj) {ns mnmax nyq : Int} {free : Bool}
    (h : Outputs o ns mnmax nyq free) :
    ∃ f m', save o = .ok f ∧ load stod f m = .ok m' ∧ ∀ x ∈ unsaved, m' "/wout" x = m "/wout" x := by
  obtain ⟨f, m', e1, e2, _, _, d⟩ := C112_result stod o m h
  have hc : ("/wout", wOutFileContents, woutSteps) ∈ classes := by simp [classes]
  have hn : ∀ x ∈ unsaved, x ∉ names wOutFileContents := by decide +kernel
  exact ⟨f, m', e1, e2, fun x hx => d _ hc x (hn x hx)⟩

theorem writeMembers_append (g : String) (o : Obj) (t t' : List (String × Kind)) (f : File) :
    writeMembers g o (t ++ t') f = (writeMembers g o t f >>= fun f => writeMembers g o t' f) := by
  induction t generalizing f with
  | nil => rfl
  | cons p t ih =>
    obtain ⟨x, k⟩ := p
    simp only [List.cons_append, writeMembers]
    cases writeDataset f g x (o x) with
    | ok f => simp only [Outcome.bind_ok, ih]
    | _ => rfl

/-- **C112**, negation: writing `wout` with a label of a current has undefined behaviour -/
theorem C112_labels_fails (o : Obj) (l : String) (ls : List String) (hl : o "curlabel" = .strs (l :: ls))
    (hs : ∀ x ∈ names wOutFileContents, x ≠ "curlabel" → Storable (o x)) : ∃ w, writeTo "/wout" wOutFileContents o emptyFile = .ub w := by
  have e : wOutFileContents = wOutFileContents.take 79 ++ ("curlabel", .strs) :: wOutFileContents.drop 80 := by decide +kernel
  have hn : (names (wOutFileContents.take 79)).Nodup ∧ (∀ x ∈ names (wOutFileContents.take 79), x ∈ names wOutFileContents) ∧
      ∀ x ∈ names (wOutFileContents.take 79), x ≠ "curlabel" := by decide +kernel
  unfold writeTo createGroup
  rw [if_neg (by simp [emptyFile]), Outcome.bind_ok, e, writeMembers_append,
    writeMembers_ok _ _ _ _ hn.1 (fun x hx => hs x (hn.2.1 x hx) (hn.2.2 x hx)) (fun _ _ => rfl), Outcome.bind_ok]
  simp only [writeMembers, hl, writeDataset]
  exact ⟨_, rfl⟩

/-- **C112**: a file of the former layout, with the former names, without the axis on the half grid and with one row per surface, gives
the same `wout`, also with as many modes as surfaces -/
theorem C112_old (stod : String → Outcome D) (v : String) (ver : D) (hv : stod v = .ok ver) (o m : Obj) {ns mnmax nyq : Int} {free : Bool}
    (w : OldWout o ns mnmax nyq free) (hver : o "version_" = .double ver)
    (h3 : free = false → o "nextcur" = .int 0 ∧ o "extcur" = .doubles []) :
    ∃ m', run stod (oldFile v o) woutSteps m = .ok m' ∧ (∀ x ∈ names wOutFileContents, SameVal (m' x) (o x)) ∧
      ∀ x, x ∉ names wOutFileContents → m' x = m x := by
  refine ⟨_, run_sound stod _ (gotOld ver o ns free) _ [] m wout_ordered (fun s hs => old_sound hv w s (wout_legitOld s hs)) (by simp), ?_, ?_⟩
  · intro x hx
    simp only [override]
    rw [if_pos (wout_targets.2 x hx)]
    exact gotOld_same w hver h3 x
  · intro x hx
    simp only [override]
    rw [if_neg fun h' => hx (wout_targets.1 x h')]

/-- **C112**: `chipH` and `currH` of files that do not have them are zero, as many as there are entries in `phipH` -/
theorem C112_missing (stod : String → Outcome D) (o m : Obj) (ht : Typed vmecInternalResults o) (l : List D) (hl : o "phipH" = .doubles l) :
    ∃ m', run stod (fun x => if x ∈ names vmecInternalResults ∧ x ≠ "chipH" ∧ x ≠ "currH" then some (o x) else none) internalSteps m = .ok m' ∧
      (∀ x ∈ names vmecInternalResults, x ≠ "chipH" → x ≠ "currH" → m' x = o x) ∧
      (∀ x, x = "chipH" ∨ x = "currH" → m' x = .doubles (List.replicate l.length 0)) := by
  have hst : ∀ s ∈ internalSteps, (∃ x k, s = .member x k ∧ (x, k) ∈ vmecInternalResults ∧ x ≠ "chipH" ∧ x ≠ "currH") ∨
      ∃ x, s = .orZeros x "phipH" ∧ (x = "chipH" ∨ x = "currH") := by
    intro s hs
    obtain ⟨p, hp, rfl⟩ := List.mem_map.1 hs
    by_cases h : p.1 = "chipH" ∨ p.1 = "currH"
    · exact Or.inr ⟨p.1, by rw [if_pos h], h⟩
    · exact Or.inl ⟨p.1, p.2, by rw [if_neg h], hp, by tauto, by tauto⟩
  have ho : ordered [] internalSteps = true := by decide +kernel
  have htg : (∀ x ∈ names vmecInternalResults, x ∈ internalSteps.flatMap targets) ∧ "chipH" ∈ internalSteps.flatMap targets ∧
      "currH" ∈ internalSteps.flatMap targets := by decide +kernel
  refine ⟨_, run_sound stod _ (fun x => if x = "chipH" ∨ x = "currH" then .doubles (List.replicate l.length 0) else o x) _ [] m ho ?_ (by simp),
    ?_, ?_⟩
  · intro s hs m hm
    rcases hst s hs with ⟨x, k, rfl, h1, h2, h3⟩ | ⟨x, rfl, h1⟩
    · have hx : x ∈ names vmecInternalResults := List.mem_map.2 ⟨(x, k), h1, rfl⟩
      simp only [exec, targets]
      refine readMember_sound m ?_ ?_
      · simp [hx, h2, h3]
      · simp only [h2, h3, or_self, if_false]
        exact ht _ h1
    · have e1 : m "phipH" = .doubles l := by
        rw [hm _ (List.mem_cons_self ..)]
        simp [hl]
      simp only [exec]
      rw [if_neg (by rcases h1 with rfl | rfl <;> simp), e1]
      simp only
      congr 1
      refine put_eq_override _ _ _ _ ?_
      rw [if_pos h1, List.map_const']
  · intro x hx h1 h2
    simp only [override]
    rw [if_pos (htg.1 x hx), if_neg (by tauto)]
  · intro x hx
    simp only [override]
    rw [if_pos (by rcases hx with rfl | rfl; exacts [htg.2.1, htg.2.2]), if_pos hx]

/-! ### a run with three surfaces -/

/-- an array with different rows -/
def sampleArray (mn ns : Int) : Mat D := ⟨mn, ns, fun i j => if j = 0 then 0 else .fin (i + 10 * j)⟩

/-- a value of every type -/
def sampleOf : Kind → Val
  | .bool => .bool false
  | .int => .int 1
  | .double => .double (.fin 1)
  | .str => .str "x"
  | .strs => .strs []
  | .ints => .ints [1, 2]
  | .doubles => .doubles [0, .fin 2, .fin 3]
  | .matrix => .matrix (sampleArray 1 2)

/-- a `wout` with `ns` surfaces, `mnmax` and `nyq` modes -/
def sampleWout (ns mnmax nyq : Int) (free : Bool) : Obj := fun x =>
  if x ∈ geometryArrays then .matrix (sampleArray mnmax ns)
  else if x ∈ fieldArrays then .matrix (sampleArray nyq ns)
  else if x = "ns" then .int ns
  else if x = "mnmax" then .int mnmax
  else if x = "mnmax_nyq" then .int nyq
  else if x = "lfreeb" then .bool free
  else sampleOf ((wOutFileContents.lookup x).getD .int)

/-- the outputs -/
def sample (ns mnmax nyq : Int) (free : Bool) : String → Obj := fun g =>
  if g = "/wout" then sampleWout ns mnmax nyq free
  else fun x => sampleOf (((classes.lookup g).bind fun p => p.1.lookup x).getD .int)

theorem sampleOf_kind (k : Kind) : (sampleOf k).kind = k := by cases k <;> rfl

theorem sampleOf_storable (k : Kind) : Storable (sampleOf k) := by
  cases k <;> simp [sampleOf, Storable]

theorem sampleWout_ok (ns mnmax nyq : Int) (free : Bool) (h : 2 ≤ ns) : Wout (sampleWout ns mnmax nyq free) ns mnmax nyq free := by
  have hk : ∀ p ∈ wOutFileContents, (p.1 ∈ geometryArrays ∨ p.1 ∈ fieldArrays → p.2 = .matrix) ∧
      (p.1 = "ns" ∨ p.1 = "mnmax" ∨ p.1 = "mnmax_nyq" → p.2 = .int) ∧ (p.1 = "lfreeb" → p.2 = .bool) ∧
      (wOutFileContents.lookup p.1) = some p.2 := by decide +kernel
  have hn : ∀ x ∈ fieldArrays, x ∉ geometryArrays := by decide +kernel
  have hd : ("ns" ∉ geometryArrays ∧ "ns" ∉ fieldArrays) ∧ ("mnmax" ∉ geometryArrays ∧ "mnmax" ∉ fieldArrays) ∧
    ("mnmax_nyq" ∉ geometryArrays ∧ "mnmax_nyq" ∉ fieldArrays) ∧ "lfreeb" ∉ geometryArrays ∧ "lfreeb" ∉ fieldArrays := by decide +kernel
  refine ⟨?_, ?_, ?_, ?_, ?_, h, ?_, ?_⟩
  · intro p hp
    obtain ⟨h1, h2, h3, h4⟩ := hk p hp
    unfold sampleWout
    split_ifs with c1 c2 c3 c4 c5 c6
    · exact (h1 (Or.inl c1)).symm
    · exact (h1 (Or.inr c2)).symm
    · exact (h2 (Or.inl c3)).symm
    · exact (h2 (Or.inr (Or.inl c4))).symm
    · exact (h2 (Or.inr (Or.inr c5))).symm
    · exact (h3 c6).symm
    · rw [h4]
      exact sampleOf_kind _
  · simp [sampleWout, hd.1.1, hd.1.2]
  · simp [sampleWout, hd.2.1.1, hd.2.1.2]
  · simp [sampleWout, hd.2.2.1.1, hd.2.2.1.2]
  · simp [sampleWout, hd.2.2.2.1, hd.2.2.2.2]
  · intro x hx
    exact ⟨sampleArray mnmax ns, by simp [sampleWout, hx], Or.inl ⟨rfl, rfl⟩⟩
  · intro x hx
    exact ⟨sampleArray nyq ns, by simp [sampleWout, hx, hn x hx], Or.inl ⟨rfl, rfl⟩⟩

theorem sample_ok (ns mnmax nyq : Int) (free : Bool) (h : 2 ≤ ns) : Outputs (sample ns mnmax nyq free) ns mnmax nyq free := by
  have hk : ∀ c ∈ classes, c.1 ≠ "/wout" → ∀ p ∈ c.2.1, ((classes.lookup c.1).bind fun q => q.1.lookup p.1) = some p.2 := by decide +kernel
  refine ⟨?_, ?_, ?_⟩
  · intro c hc p hp
    by_cases hw : c.1 = "/wout"
    · rw [(classes_wout c hc hw).1] at hp
      simp only [sample, hw, if_true]
      exact (sampleWout_ok ns mnmax nyq free h).typed p hp
    · simp only [sample, hw, if_false]
      rw [hk c hc hw p hp]
      exact sampleOf_kind _
  · intro c hc x hx
    by_cases hw : c.1 = "/wout"
    · simp only [sample, hw, if_true]
      unfold sampleWout
      split_ifs <;> first | trivial | exact sampleOf_storable _
    · simp only [sample, hw, if_false]
      exact sampleOf_storable _
  · simp only [sample, if_true]
    exact sampleWout_ok ns mnmax nyq free h

/-- three surfaces, two and five modes: saved and loaded -/
example (m : String → Obj) : ∃ f m', save (sample 3 2 5 true) = .ok f ∧ load (fun _ => .ok 0) f m = .ok m' ∧
    ∀ c ∈ classes, ∀ x ∈ names c.2.1, m' c.1 x = sample 3 2 5 true c.1 x :=
  C112_roundtrip_partial _ _ m (sample_ok 3 2 5 true (by decide)) (by decide) (by decide) (by intro h; cases h)

/-- **C112**, negation: three surfaces and three modes: the saved and the loaded `rmnc` differ -/
theorem C112_square_witness (m : String → Obj) : ∃ (f : File) (m' : String → Obj) (a b : Mat D),
    save (sample 3 3 5 true) = .ok f ∧ load (fun _ => .ok 0) f m = .ok m' ∧
    sample 3 3 5 true "/wout" "rmnc" = .matrix a ∧ m' "/wout" "rmnc" = .matrix b ∧ a.val 1 2 = .fin 21 ∧ b.val 1 2 = .fin 12 := by
  have hr : "rmnc" ∈ geometryArrays := by decide +kernel
  have ha : sample 3 3 5 true "/wout" "rmnc" = .matrix (sampleArray 3 3) := by
    simp [sample, sampleWout, hr]
  obtain ⟨f, m', h1, h2, h3⟩ := C112_square_fails (fun _ => .ok 0) (sample 3 3 5 true) m (sample_ok 3 3 5 true (by decide)) rfl "rmnc" hr
    (sampleArray 3 3) ha rfl
  refine ⟨f, m', _, _, h1, h2, ha, h3, ?_, ?_⟩ <;> simp [sampleArray, transpose] <;> norm_num

/-- the same run in the former layout is loaded correctly -/
theorem sampleOld_ok : OldWout (sampleWout 3 3 5 true) 3 3 5 true := by
  refine ⟨sampleWout_ok 3 3 5 true (by decide), by decide, ?_, ?_⟩
  · have : ∀ p ∈ oldHalf, p.1 ∉ geometryArrays ∧ p.1 ∉ fieldArrays ∧ p.1 ≠ "ns" ∧ p.1 ≠ "mnmax" ∧ p.1 ≠ "mnmax_nyq" ∧ p.1 ≠ "lfreeb" ∧
        wOutFileContents.lookup p.1 = some .doubles := by decide +kernel
    intro p hp
    obtain ⟨a1, a2, a3, a4, a5, a6, a7⟩ := this p hp
    refine ⟨[.fin 2, .fin 3], ?_⟩
    simp [sampleWout, a1, a2, a3, a4, a5, a6, a7, sampleOf]
  · have : ∀ x ∈ oldHalfArrays, x ∈ geometryArrays ∨ x ∈ fieldArrays := by decide +kernel
    intro x hx a ha i _ _
    have e : ∃ mn, a = sampleArray mn 3 := by
      unfold sampleWout at ha
      split_ifs at ha with c1 c2
      · exact ⟨3, (Val.matrix.inj ha).symm⟩
      · exact ⟨5, (Val.matrix.inj ha).symm⟩
      all_goals exact absurd (this x hx) (by tauto)
    obtain ⟨mn, rfl⟩ := e
    simp [sampleArray]

example (m : Obj) : ∃ m', run (fun _ => .ok (.fin 1)) (oldFile "1" (sampleWout 3 3 5 true)) woutSteps m = .ok m' ∧
    (∀ x ∈ names wOutFileContents, SameVal (m' x) (sampleWout 3 3 5 true x)) ∧ ∀ x, x ∉ names wOutFileContents → m' x = m x :=
  C112_old _ "1" (.fin 1) rfl _ m sampleOld_ok (by
    have : "version_" ∉ geometryArrays ∧ "version_" ∉ fieldArrays ∧ wOutFileContents.lookup "version_" = some .double := by decide +kernel
    simp [sampleWout, this.1, this.2.1, this.2.2, sampleOf]) (by intro h; cases h)

/-- labels of the currents, as Python can set them (`pybind_vmec.cc:1039`) -/
example : ∃ w, writeTo "/wout" wOutFileContents (fun x => if x = "curlabel" then .strs ["a", "b"] else sampleWout 3 2 5 true x) emptyFile = .ub w :=
  C112_labels_fails _ "a" ["b"] rfl (by
    intro x _ h
    simp only [h, if_false]
    unfold sampleWout
    split_ifs <;> first | trivial | exact sampleOf_storable _)

/-- a fixed-boundary run with coil currents -/
example : Outputs (sample 3 2 5 false) 3 2 5 false ∧ sample 3 2 5 false "/wout" "extcur" = .doubles [0, .fin 2, .fin 3] := by
  refine ⟨sample_ok 3 2 5 false (by decide), ?_⟩
  have : "extcur" ∉ geometryArrays ∧ "extcur" ∉ fieldArrays ∧ wOutFileContents.lookup "extcur" = some .doubles := by decide +kernel
  simp [sample, sampleWout, this.1, this.2.1, this.2.2, sampleOf]

/-- an object without `chipH` and `currH` in the file -/
example : Typed vmecInternalResults (sample 3 2 5 true "/vmec_internal_results") ∧
    sample 3 2 5 true "/vmec_internal_results" "phipH" = .doubles [0, .fin 2, .fin 3] := by
  refine ⟨(sample_ok 3 2 5 true (by decide)).typed ("/vmec_internal_results", vmecInternalResults, internalSteps) (by simp [classes]), ?_⟩
  have : ((classes.lookup "/vmec_internal_results").bind fun p => p.1.lookup "phipH") = some .doubles := by decide +kernel
  simp [sample, this, sampleOf]

end Verif.OutputIo
