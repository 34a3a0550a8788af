import Verif.Logger.Lemmas

/-!
# Property C117

The progress display shows the state of the run: fractions between 0 and 1, full bars only for
stages that are done, and on the terminal exactly the last display.
-/
namespace Verif.Logger
open Verif

variable (lg : ℚ → ℚ)

/-! ## Progress -/

/-- **C117** (range): whatever the residuals are, NaN and infinities included, the fraction is a
    number from 0 to 1. -/
theorem C117_range (s : Stage) : ∃ q : ℚ, computeProgress lg s = .fin q ∧ 0 ≤ q ∧ q ≤ 1 := by
  unfold computeProgress
  split
  · exact ⟨1, rfl, by norm_num, le_refl _⟩
  · exact clamp01_range _

/-- **C117** (meaning): of a stage that runs, with finite residuals and an initial residual `a` above
    the tolerance `t`, the fraction is 1 exactly if the residual has met the tolerance or the
    iterations are used up, and 0 exactly if the residual has not fallen and no iteration was made. -/
theorem C117_meaning (hlg : ∀ a b, 0 < a → 0 < b → (lg a < lg b ↔ a < b)) (s : Stage) (a t f : ℚ)
    (ha : 0 < a) (ht : 0 < t) (hf : 0 < f) (hat : t < a) (hs : s.initSet = true) (hc : s.completed = false)
    (h1 : s.initLog = .fin (lg a)) (h2 : s.ftolv = .fin t) (h3 : s.lastFsq = .fin f) (hn : 0 < s.niter)
    (hi : 0 ≤ s.lastIter) :
    (computeProgress lg s = .fin 1 ↔ f ≤ t ∨ s.niter ≤ s.lastIter) ∧
    (computeProgress lg s = .fin 0 ↔ a ≤ f ∧ s.lastIter = 0) := by
  have hle : ∀ x y, 0 < x → 0 < y → (lg x ≤ lg y ↔ x ≤ y) := fun x y hx hy => by
    rw [← not_lt, ← not_lt, hlg y x hy hx]
  have hd : 0 < lg a - lg t := by have := (hlg t a ht ha).2 hat; linarith
  have hF : fsqProgress lg s = .fin ((lg a - lg f) / (lg a - lg t)) := by
    unfold fsqProgress
    rw [hs, h1, h2, h3]
    have e1 : dlog lg (.fin f) = .fin (lg f) := by simp [dlog, not_lt.2 hf.le, hf.ne']
    have e2 : dlog lg (.fin t) = .fin (lg t) := by simp [dlog, not_lt.2 ht.le, ht.ne']
    rw [e1, e2]
    have e3 : dsub (.fin (lg a)) (.fin (lg f)) = .fin (lg a - lg f) := by
      simp [dsub, dneg, D.add, sub_eq_add_neg]
    have e4 : dsub (.fin (lg a)) (.fin (lg t)) = .fin (lg a - lg t) := by
      simp [dsub, dneg, D.add, sub_eq_add_neg]
    rw [e3, e4]
    simp [D.lt, hf, (hlg t a ht ha).2 hat, ddiv, hd.ne']
  have hI : iterProgress s = .fin ((s.lastIter : ℚ) / s.niter) := by
    unfold iterProgress; rw [if_pos hn]
  have hn' : (0 : ℚ) < s.niter := by exact_mod_cast hn
  have hi' : (0 : ℚ) ≤ s.lastIter := by exact_mod_cast hi
  have hP : computeProgress lg s =
      .fin (max 0 (min 1 (max ((lg a - lg f) / (lg a - lg t)) ((s.lastIter : ℚ) / s.niter)))) := by
    unfold computeProgress
    rw [hc, hF, hI, stdMax_fin, clamp01_fin]
    rfl
  have hx : 1 ≤ (lg a - lg f) / (lg a - lg t) ↔ f ≤ t := by
    rw [le_div_iff₀ hd, one_mul, ← hle f t hf ht]
    constructor <;> intro h <;> linarith
  have hy : 1 ≤ (s.lastIter : ℚ) / s.niter ↔ s.niter ≤ s.lastIter := by
    rw [le_div_iff₀ hn', one_mul]; exact_mod_cast Iff.rfl
  have hx0 : (lg a - lg f) / (lg a - lg t) ≤ 0 ↔ a ≤ f := by
    rw [div_le_iff₀ hd, zero_mul, ← hle a f ha hf]
    constructor <;> intro h <;> linarith
  have hy0 : (s.lastIter : ℚ) / s.niter ≤ 0 ↔ s.lastIter = 0 := by
    rw [div_le_iff₀ hn', zero_mul]
    constructor
    · intro h
      have : s.lastIter ≤ 0 := by exact_mod_cast h
      omega
    · intro h; rw [h]; simp
  rw [hP]
  constructor
  · rw [D.fin.injEq, ← hx, ← hy, ← le_max_iff]
    constructor
    · intro h
      by_contra hlt
      rw [not_le] at hlt
      rw [min_eq_right hlt.le] at h
      have : max 0 (max ((lg a - lg f) / (lg a - lg t)) ((s.lastIter : ℚ) / s.niter)) < 1 :=
        max_lt (by norm_num) hlt
      linarith
    · intro h
      rw [min_eq_left h]; norm_num
  · rw [D.fin.injEq, ← hx0, ← hy0, ← max_le_iff]
    constructor
    · intro h
      by_contra hlt
      rw [not_le] at hlt
      have : 0 < min 1 (max ((lg a - lg f) / (lg a - lg t)) ((s.lastIter : ℚ) / s.niter)) :=
        lt_min (by norm_num) hlt
      have := lt_of_lt_of_le this (le_max_right 0 _)
      linarith
    · intro h
      rw [min_eq_right (by linarith), max_eq_left h]

/-- **C117** (bar): a bar always has its full width, and the filled part is the fraction rounded
    down to whole characters. -/
theorem C117_bar (s : Stage) (w : Int) (hw : 0 ≤ w) : ∃ (a b : Int) (q : ℚ),
    formatBar (computeProgress lg s) w = .ok (a, b) ∧ 0 ≤ a ∧ 0 ≤ b ∧ a + b = w ∧
    computeProgress lg s = .fin q ∧ (a : ℚ) ≤ q * w ∧ q * w < a + 1 := by
  obtain ⟨q, e, h0, h1⟩ := C117_range lg s
  obtain ⟨a, b, h, ha, hb, hab, q', e', h2, h3⟩ := formatBar_spec (computeProgress lg s) w hw
  rw [e, clamp01_fin, min_eq_right h1, max_eq_right h0, D.fin.injEq] at e'
  subst e'
  exact ⟨a, b, q, h, ha, hb, hab, e, h2, h3⟩

/-- **C117** (diverged runs): an infinite first residual is shown as completed. -/
theorem C117_infinite (s : Stage) (f : ℚ) (hf : 0 < f) (t : ℚ) (ht : 0 < t) (hs : s.initSet = true)
    (hi : s.initLog = .pinf) (h2 : s.ftolv = .fin t) (h3 : s.lastFsq = .fin f ∨ s.lastFsq = .pinf) :
    computeProgress lg s = .fin 1 := by
  unfold computeProgress
  split
  · rfl
  · have e2 : dlog lg (.fin t) = .fin (lg t) := by simp [dlog, not_lt.2 ht.le, ht.ne']
    have : fsqProgress lg s = .nan := by
      unfold fsqProgress
      rcases h3 with h3 | h3
      · have e1 : dlog lg (.fin f) = .fin (lg f) := by simp [dlog, not_lt.2 hf.le, hf.ne']
        rw [hs, hi, h2, h3, e1, e2]
        simp [D.lt, hf, dsub, dneg, D.add, ddiv]
      · rw [hs, hi, h2, h3, e2]
        simp [D.lt, dlog, dsub, dneg, D.add, ddiv]
    rw [this]
    simp [D.stdMax, D.lt, clamp01, D.stdMin]

/-! ## Memory -/

/-- the calls with the stage indices of the user's grids -/
def Call.Regular : Call → Prop
  | .begin i .. => 0 ≤ i
  | _ => True

theorem renderProgress_ok (st : State) : ∃ o, renderProgress lg st = .ok ({ st with printed := 2 + 3 * st.stages.length }, o) := by
  obtain ⟨ls, e, hl⟩ := display_ok lg st
  unfold renderProgress
  rw [e, ← hl]
  exact ⟨_, rfl⟩

theorem renderSingle_ok (st : State) : ∃ o, renderSingle lg st = .ok (st, o) := by
  unfold renderSingle
  split
  · exact ⟨_, rfl⟩
  · rename_i h
    simp only [Bool.or_eq_true, decide_eq_true_eq, not_or, not_lt, not_le] at h
    obtain ⟨s, e⟩ := stageAt_ok h.1 h.2
    obtain ⟨a, b, e', -⟩ := formatBar_spec (computeProgress lg s) 30 (by norm_num)
    rw [e, Outcome.bind_ok, e']
    exact ⟨_, rfl⟩

theorem call_ok {st : State} (hw : st.cur < st.stages.length) (c : Call) (hc : c.Regular) :
    ∃ st' o, call lg st c = .ok (st', o) ∧ st'.cur < st'.stages.length := by
  cases c with
  | begin i num ns mnmax ftolv niter freeb =>
    have hi : 0 ≤ i := hc
    simp only [call, beginStage]
    split
    · exact ⟨_, _, rfl, hw⟩
    · by_cases h : (st.stages.length : Int) ≤ i
      · rw [if_pos h]
        have hlen : i < ((st.stages ++ List.replicate (i.toNat + 1 - st.stages.length) ({} : Stage)).length : Int) := by
          rw [List.length_append, List.length_replicate]; omega
        obtain ⟨s, e⟩ := stageAt_ok (st := { st with cur := i, numStages := num, freeb := freeb, stages := st.stages ++ List.replicate (i.toNat + 1 - st.stages.length) {} }) hi hlen
        rw [e]
        refine ⟨_, _, rfl, ?_⟩
        simp only [setStage, List.length_set]
        exact hlen
      · rw [if_neg h]
        obtain ⟨s, e⟩ := stageAt_ok (st := { st with cur := i, numStages := num, freeb := freeb }) hi (not_le.1 h)
        rw [e]
        refine ⟨_, _, rfl, ?_⟩
        simp only [setStage, List.length_set]
        exact not_le.1 h
  | log r =>
    have key : ∀ g : Stage, ∃ st' o, (if (setStage st st.cur g).mode = .progress then
        renderProgress lg (setStage st st.cur g) else renderSingle lg (setStage st st.cur g)) = .ok (st', o) ∧
        st'.cur < st'.stages.length := by
      intro g
      split
      · obtain ⟨o, h'⟩ := renderProgress_ok lg (setStage st st.cur g)
        exact ⟨_, o, h', by simpa [setStage] using hw⟩
      · obtain ⟨o, h'⟩ := renderSingle_ok lg (setStage st st.cur g)
        exact ⟨_, o, h', by simpa [setStage] using hw⟩
    simp only [call, logIteration]
    split
    · exact ⟨_, _, rfl, hw⟩
    · split
      · exact ⟨_, _, rfl, hw⟩
      · split
        · exact ⟨_, _, rfl, hw⟩
        · rename_i h
          simp only [Bool.or_eq_true, decide_eq_true_eq, not_or, not_lt, not_le] at h
          obtain ⟨s, e⟩ := stageAt_ok h.1 h.2
          rw [e, Outcome.bind_ok]
          exact key _
  | done e =>
    have key : ∀ st : State, st.cur < st.stages.length → ∃ st' o,
        (if st.mode = .legacy then Outcome.ok (st, [Out.line (.legacyEnd e)])
        else if st.mode = .progress then renderProgress lg st
        else do
          let (st, o) ← renderSingle lg st
          .ok (st, o ++ [.newline])) = .ok (st', o) ∧ st'.cur < st'.stages.length := by
      intro st hw
      split
      · exact ⟨_, _, rfl, hw⟩
      · split
        · obtain ⟨o, h'⟩ := renderProgress_ok lg st
          exact ⟨_, o, h', hw⟩
        · obtain ⟨o, h'⟩ := renderSingle_ok lg st
          rw [h']
          exact ⟨_, _, rfl, hw⟩
    simp only [call, endStage]
    split
    · exact ⟨_, _, rfl, hw⟩
    · split
      · rename_i h
        simp only [Bool.and_eq_true, decide_eq_true_eq] at h
        obtain ⟨s, e'⟩ := stageAt_ok h.1 h.2
        rw [e']
        simp only [Outcome.bind_ok]
        exact key _ (by simpa [setStage] using hw)
      · simp only [Outcome.bind_ok]
        exact key _ hw

/-- **C117** (memory): in every mode and for every sequence of calls with the indices of the user's
    grids, in any order, no element outside of the stages is accessed. -/
theorem C117_memory (mode : Mode) (cs : List Call) (h : ∀ c ∈ cs, c.Regular) :
    ∃ st o, runCalls lg { mode := mode } cs = .ok (st, o) := by
  have key : ∀ (cs : List Call) (st : State), st.cur < st.stages.length → (∀ c ∈ cs, c.Regular) →
      ∃ st' o, runCalls lg st cs = .ok (st', o) := by
    intro cs
    induction cs with
    | nil => intro st _ _; exact ⟨_, _, rfl⟩
    | cons c cs ih =>
      intro st hw h
      obtain ⟨st', o, e, hw'⟩ := call_ok lg hw c (h c (by simp))
      obtain ⟨st'', o', e'⟩ := ih st' hw' fun c hc => h c (by simp [hc])
      refine ⟨st'', o ++ o', ?_⟩
      simp only [runCalls, e, e', Outcome.bind_ok]
  exact key cs _ (by simp) h

/-- **C117 fails** (retry with three surfaces): that stage has the index -1 (`vmec.cc:298,346`), for
    which `BeginStage` writes in front of the vector, unless the mode is silent. -/
theorem C117_memory_fails (st : State) (h : st.mode ≠ .silent) (num ns mnmax niter : Int) (ftolv : D)
    (freeb : Bool) : beginStage st (-1) num ns mnmax ftolv niter freeb = .ub "stages_" := by
  unfold beginStage
  rw [if_neg h]
  have : ¬ ((st.stages.length : Int) ≤ -1) := by omega
  simp only [if_neg this]
  rfl

/-- **C117** (silence): the silent mode writes nothing. -/
theorem C117_silent (st : State) (h : st.mode = .silent) (cs : List Call) :
    runCalls lg st cs = .ok (st, []) := by
  induction cs with
  | nil => rfl
  | cons c cs ih =>
    have : call lg st c = .ok (st, []) := by
      cases c <;> simp [call, beginStage, logIteration, endStage, h]
    simp only [runCalls, this, ih, Outcome.bind_ok]
    rfl

/-! ## Screen -/

/-- does the call show something? -/
def Call.IsShown : Call → Prop
  | .begin .. => False
  | _ => True

theorem call_screen {r0 : Nat} {start : Nat → Option Line} {st : State} {s : Screen}
    (hI : Inv r0 start st s) (c : Call) (hc : c.Regular) :
    ∃ st' o, call lg st c = .ok (st', o) ∧ Inv r0 start st' (o.foldl exec s) ∧
      (c.IsShown → 0 ≤ st.cur → Shows lg r0 start st' (o.foldl exec s)) ∧
      (¬ c.IsShown → 0 ≤ st'.cur) ∧ (0 ≤ st.cur → 0 ≤ st'.cur) := by
  have hm : st.mode ≠ .silent := by rw [hI.mode]; decide
  have hl : st.mode ≠ .legacy := by rw [hI.mode]; decide
  have hrc : ∀ {a b : State} {o}, renderProgress lg a = .ok (b, o) → b.cur = a.cur := by
    intro a b o h
    obtain ⟨o', e⟩ := renderProgress_ok lg a
    rw [e, Outcome.ok.injEq, Prod.mk.injEq] at h
    rw [← h.1]
  cases c with
  | begin i num ns mnmax ftolv niter freeb =>
    have hi : 0 ≤ i := hc
    simp only [call, beginStage]
    rw [if_neg hm]
    by_cases h : (st.stages.length : Int) ≤ i
    · rw [if_pos h]
      have hlen : i < ((st.stages ++ List.replicate (i.toNat + 1 - st.stages.length) ({} : Stage)).length : Int) := by
        rw [List.length_append, List.length_replicate]; omega
      obtain ⟨s', e⟩ := stageAt_ok (st := { st with cur := i, numStages := num, freeb := freeb, stages := st.stages ++ List.replicate (i.toNat + 1 - st.stages.length) {} }) hi hlen
      rw [e]
      simp only [Outcome.bind_ok]
      have hl2 : ¬ (setStage { st with cur := i, numStages := num, freeb := freeb, stages := st.stages ++ List.replicate (i.toNat + 1 - st.stages.length) {} } i { s' with ns := ns, niter := niter, ftolv := ftolv, lastIter := 0, initSet := false, completed := false }).mode = .legacy := hl
      rw [if_neg hl2]
      refine ⟨_, _, rfl, ?_, fun h => absurd h id, fun _ => hi, fun _ => hi⟩
      apply inv_set
      refine ⟨hlen, hI.mode, ?_, hI.row, hI.rest⟩
      have := hI.printed
      simp only [List.length_append]
      omega
    · rw [if_neg h]
      obtain ⟨s', e⟩ := stageAt_ok (st := { st with cur := i, numStages := num, freeb := freeb }) hi (not_le.1 h)
      rw [e]
      simp only [Outcome.bind_ok]
      have hl2 : ¬ (setStage { st with cur := i, numStages := num, freeb := freeb } i { s' with ns := ns, niter := niter, ftolv := ftolv, lastIter := 0, initSet := false, completed := false }).mode = .legacy := hl
      rw [if_neg hl2]
      refine ⟨_, _, rfl, ?_, fun h => absurd h id, fun _ => hi, fun _ => hi⟩
      apply inv_set
      exact ⟨not_le.1 h, hI.mode, hI.printed, hI.row, hI.rest⟩
  | log r =>
    simp only [call, logIteration]
    rw [if_neg hm, if_neg hl]
    by_cases h : st.cur < 0
    · rw [if_pos (by simp [h])]
      exact ⟨_, _, rfl, hI, fun _ hh => absurd hh (by omega), fun hh => absurd trivial hh, fun hh => absurd hh (by omega)⟩
    · rw [if_neg (by have := hI.cur; simp; omega)]
      obtain ⟨s', e⟩ := stageAt_ok (not_lt.1 h) hI.cur
      rw [e]
      simp only [Outcome.bind_ok]
      rw [if_pos (show (setStage st st.cur _).mode = .progress from hI.mode)]
      obtain ⟨st', o, h1, h2, h3, -⟩ := render_spec (lg := lg) (inv_set hI st.cur _)
      refine ⟨st', o, h1, h2, fun _ _ => h3, fun hh => absurd trivial hh, fun hh => ?_⟩
      rw [hrc h1]; exact hh
  | done en =>
    simp only [call, endStage]
    rw [if_neg hm]
    by_cases h : 0 ≤ st.cur
    · rw [if_pos (by have := hI.cur; simp; omega)]
      obtain ⟨s', e⟩ := stageAt_ok h hI.cur
      rw [e]
      simp only [Outcome.bind_ok]
      rw [if_neg (show ¬ (setStage st st.cur _).mode = .legacy from hl), if_pos (show (setStage st st.cur _).mode = .progress from hI.mode)]
      obtain ⟨st', o, h1, h2, h3, -⟩ := render_spec (lg := lg) (inv_set hI st.cur { s' with completed := true })
      refine ⟨st', o, h1, h2, fun _ _ => h3, fun hh => absurd trivial hh, fun hh => ?_⟩
      rw [hrc h1]; exact hh
    · rw [if_neg (by simp; omega)]
      simp only [Outcome.bind_ok]
      rw [if_neg hl, if_pos hI.mode]
      obtain ⟨st', o, h1, h2, h3, -⟩ := render_spec (lg := lg) hI
      exact ⟨st', o, h1, h2, fun _ _ => h3, fun hh => absurd trivial hh, fun hh => absurd hh h⟩

theorem runCalls_screen {r0 : Nat} {start : Nat → Option Line} (cs : List Call) :
    ∀ {st : State} {s : Screen}, Inv r0 start st s → (∀ c ∈ cs, c.Regular) →
    ∃ st' o, runCalls lg st cs = .ok (st', o) ∧ Inv r0 start st' (o.foldl exec s) ∧
      ((0 ≤ st.cur ∨ ∃ c ∈ cs, ¬ c.IsShown) → 0 ≤ st'.cur) := by
  induction cs with
  | nil =>
    intro st s hI _
    refine ⟨st, [], rfl, hI, ?_⟩
    rintro (h | ⟨c, hc, -⟩)
    · exact h
    · simp at hc
  | cons c cs ih =>
    intro st s hI h
    obtain ⟨st1, o1, e1, hI1, -, h1, h2⟩ := call_screen lg hI c (h c (by simp))
    obtain ⟨st2, o2, e2, hI2, h3⟩ := ih hI1 fun c hc => h c (by simp [hc])
    refine ⟨st2, o1 ++ o2, ?_, ?_, ?_⟩
    · simp only [runCalls, e1, e2, Outcome.bind_ok]
    · rw [List.foldl_append]; exact hI2
    · rintro (h' | ⟨d, hd, hd'⟩)
      · exact h3 (Or.inl (h2 h'))
      · rcases List.mem_cons.1 hd with rfl | hd
        · exact h3 (Or.inl (h1 hd'))
        · exact h3 (Or.inr ⟨d, hd, hd'⟩)

/-- **C117** (screen): a new logger in progress mode, on a terminal with any contents and the cursor
    in row `r0`.  After any calls of which at least one begins a stage, and one that shows something,
    the screen has from row `r0` on exactly the display of the present state, the cursor stands below
    it, and everything else is as it was: nothing is left of earlier displays and nothing above is
    overwritten. -/
theorem C117_screen (scr : Screen) (cs : List Call) (hcs : ∀ c ∈ cs, c.Regular)
    (hb : ∃ c ∈ cs, ¬ c.IsShown) (c : Call) (hc : c.IsShown) :
    ∃ st o st' o', runCalls lg { mode := .progress } cs = .ok (st, o) ∧ call lg st c = .ok (st', o') ∧
      Shows lg scr.row scr.rows st' ((o ++ o').foldl exec scr) := by
  have h0 : Inv scr.row scr.rows { mode := .progress } scr :=
    ⟨by simp, rfl, by simp, rfl, fun _ _ => rfl⟩
  obtain ⟨st, o, e, hI, h⟩ := runCalls_screen lg cs h0 hcs
  have hr : c.Regular := by
    cases c with
    | begin => exact absurd hc id
    | log r => trivial
    | done e => trivial
  obtain ⟨st', o', e', -, hs, -⟩ := call_screen lg hI c hr
  refine ⟨st, o, st', o', e, e', ?_⟩
  rw [List.foldl_append]
  exact hs hc (h (Or.inr hb))

/-- **C117 fails** (skipped stages): a stage that is skipped because it has fewer surfaces than the
    one before (`vmec.cc:319-323`) is displayed with `NS=0` and as waiting, for good. -/
theorem C117_skipped :
    let cs : List Call := [.begin 0 3 25 10 (.fin 1) 100 false, .done (.fin 0),
      .begin 2 3 51 10 (.fin 1) 100 false, .done (.fin 0)]
    ∃ st o ls, runCalls lg { mode := .progress } cs = .ok (st, o) ∧ display lg st = .ok ls ∧
      .emptyBar 2 0 ∈ ls ∧ .waiting ∈ ls := by
  have hb : formatBar (.fin 1) 50 = .ok (50, 0) := by
    obtain ⟨a, b, h, -, -, hab, q, e, h1, h2⟩ := formatBar_spec (.fin 1) 50 (by norm_num)
    rw [clamp01_fin, D.fin.injEq] at e
    norm_num at e
    subst e
    have h3 : a ≤ 50 := by have : (a : ℚ) ≤ 50 := by simpa using h1
                           exact_mod_cast this
    have h4 : 50 < a + 1 := by have : (50 : ℚ) < a + 1 := by simpa using h2
                               exact_mod_cast this
    rw [h]
    have : a = 50 := by omega
    subst this
    have : b = 0 := by omega
    subst this
    rfl
  simp [runCalls, call, beginStage, endStage, stageAt, setStage, renderProgress, display, blocks, block,
    computeProgress, hb, selectorFrom]

/-! ## The hypotheses are met -/

/-- one stage with a residual that falls from 1 to 1/4, tolerance 1/8, halfway through the iterations -/
def exStage : Stage := { ns := 5, niter := 100, lastIter := 50, ftolv := .fin (1 / 8), initLog := .fin 1, lastFsq := .fin (1 / 4), initSet := true }

example : ∀ a b : ℚ, 0 < a → 0 < b → ((id a : ℚ) < id b ↔ a < b) := fun _ _ _ _ => Iff.rfl

example : computeProgress id exStage = .fin (6 / 7) := by
  have h : fsqProgress id exStage = .fin (6 / 7) := by
    simp [fsqProgress, exStage, dlog, dsub, dneg, D.add, D.lt, ddiv]; norm_num
  have h2 : iterProgress exStage = .fin (1 / 2) := by simp [iterProgress, exStage]; norm_num
  have hc : exStage.completed = false := rfl
  unfold computeProgress
  rw [hc, h, h2, stdMax_fin]
  simp only [Bool.false_eq_true, if_false]
  rw [clamp01_fin]
  norm_num

example : ∀ c ∈ ([.begin 0 2 5 10 (.fin 1) 100 false, .log ⟨1, .fin 1, .fin 1, .fin 1, .fin 1, .fin 1, .fin 1, .fin 1, .fin 1, .fin 1⟩,
    .done (.fin 1), .begin 1 2 11 10 (.fin 1) 100 false] : List Call), c.Regular := by
  simp [Call.Regular]

end Verif.Logger
