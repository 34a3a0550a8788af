import Verif.PySimsopt.Model
import Mathlib.Tactic.Linarith
import Mathlib.Tactic.Ring
import Mathlib.Tactic.FieldSimp
import Mathlib.Tactic.NormNum
import Mathlib.Tactic.Positivity

/-! # C105: the SIMSOPT wrapper returns results of the current configuration -/
namespace Verif.PySimsopt
open Verif

/-! ## specification -/

/-- what the object stands for at a moment, without caching -/
structure Conf (B O : Type) where
  mpol : Int
  ntor : Int
  boundary : B
  axis : List ℝ
  dofs : Dofs
  other : O

variable {B C O W : Type} (E : Ext B C O W)

/-- the configuration after an operation: runs and written files do not change it -/
def confStep (op : Op B W) (c : Conf B O) : Conf B O :=
  match op with
  | .moveBoundary b => { c with boundary := b }
  | .setBoundary b => { c with boundary := b }
  | .setDofs x => { c with dofs := x }
  | .setMpolNtor mpol ntor => ⟨mpol, ntor, E.resizeB mpol ntor c.boundary, E.resizeA ntor c.axis, c.dofs, E.resizeO mpol ntor c.other⟩
  | .run _ => c
  | .getInput => c

/-- the configuration of a loaded input after a history -/
def conf (I : Input C O) (ops : List (Op B W)) : Conf B O :=
  ops.foldl (fun c op => confStep E op c) ⟨I.mpol, I.ntor, E.load I.mpol I.ntor I.coeffs, I.axis, I.dofs, I.other⟩

/-- the input of the solver that belongs to a configuration: the coefficients of its surface and a zero axis; a restart only
    runs the last stage -/
def Conf.input (c : Conf B O) (restart : Option W) : Input C O :=
  ⟨c.mpol, c.ntor, E.fit c.mpol c.ntor c.boundary, List.replicate c.axis.length 0, c.dofs,
    if restart.isNone then c.other else E.lastStage c.other⟩

/-- the lengths of the axis arrays follow the resolution whatever they contain -/
def AxisLen : Prop := ∀ n a b, a.length = b.length → (E.resizeA n a).length = (E.resizeA n b).length

/-! ## invariant -/

/-- the object stands for the configuration `c`, and a valid cache is a result of it; `P` holds of every restart used -/
structure Inv (keep : Bool) (P : Option W → Prop) (c : Conf B O) (v : Vmec B C O W) : Prop where
  runnable : v.runnable = true
  keeps : v.keep_all_files = keep
  mpol : v.indata.mpol = c.mpol
  ntor : v.indata.ntor = c.ntor
  boundary : v.boundary = c.boundary
  axis : v.indata.axis.length = c.axis.length
  dofs : v.indata.dofs = c.dofs
  other : v.indata.other = c.other
  cache : v.need_to_run_code = false → ∃ w r, P r ∧ v.wout = some w ∧ E.solve (c.input E r) r = .ok w ∧
    (keep = true → E.save w = .ok ())

variable {E}

theorem setIndata_ok {keep : Bool} {P : Option W → Prop} {c : Conf B O} {v : Vmec B C O W} (h : Inv E keep P c v) :
    ∃ v', setIndata E v = .ok v' ∧ Inv E keep P c v' ∧ v'.indata = c.input E none ∧ v'.need_to_run_code = v.need_to_run_code ∧
      v'.wout = v.wout ∧ v'.keep_all_files = v.keep_all_files ∧ v'.iter = v.iter := by
  have ea : v.indata.axis.map (fun _ => (0 : ℝ)) = List.replicate c.axis.length 0 := by
    rw [← h.axis]; exact List.map_const' ..
  refine ⟨{ v with indata := { v.indata with
    coeffs := E.fit v.indata.mpol v.indata.ntor v.boundary
    axis := v.indata.axis.map (fun _ => 0) } }, by unfold setIndata; rw [if_neg (by simp [h.runnable])], ?_, ?_, rfl, rfl, rfl, rfl⟩
  · exact ⟨h.runnable, h.keeps, h.mpol, h.ntor, h.boundary, by simp [h.axis], h.dofs, h.other, h.cache⟩
  · unfold Conf.input
    simp only [h.mpol, h.ntor, h.boundary, ea, h.dofs, h.other, Option.isNone_none, if_true]

/-- everything `run` can do on an object that stands for `c` -/
theorem run_cases {keep : Bool} {P : Option W → Prop} {c : Conf B O} {v : Vmec B C O W} (h : Inv E keep P c v)
    (r : Option W) (hr : P r) :
    Inv E keep P c (run E r v).1 ∧
    ((run E r v).2 = .ok () → (run E r v).1.need_to_run_code = false) ∧
    (v.need_to_run_code = true →
      (∀ w, E.solve (c.input E r) r = .ok w → (keep = true → E.save w = .ok ()) → (run E r v).2 = .ok () ∧ (run E r v).1.wout = some w) ∧
      (∀ m, E.solve (c.input E r) r = .throws m → (run E r v).2 = .throws m)) := by
  by_cases hn : v.need_to_run_code = true
  · have h1 : Inv E keep P c { v with iter := v.iter + 1 } :=
      ⟨h.runnable, h.keeps, h.mpol, h.ntor, h.boundary, h.axis, h.dofs, h.other, h.cache⟩
    obtain ⟨v2, e2, i2, hi, hneed, hw, hk, _⟩ := setIndata_ok h1
    have hneed' : v2.need_to_run_code = true := by rw [hneed]; exact hn
    have key : run E r v = afterSolve E v2 (E.solve (c.input E r) r) := by
      unfold run
      rw [if_neg (by simp [hn]), if_neg (by simp [h.runnable])]
      simp only
      rw [e2]
      simp only [hi]
      cases r <;> rfl
    have keep2 : ∀ w, Inv E keep P c { v2 with wout := some w } := fun w =>
      ⟨i2.runnable, i2.keeps, i2.mpol, i2.ntor, i2.boundary, i2.axis, i2.dofs, i2.other, fun hf => absurd hneed' (by simp only at hf; rw [hf]; simp)⟩
    have done2 : ∀ w, E.solve (c.input E r) r = .ok w → (keep = true → E.save w = .ok ()) →
        Inv E keep P c { v2 with wout := some w, need_to_run_code := false } := fun w hs hsv =>
      ⟨i2.runnable, i2.keeps, i2.mpol, i2.ntor, i2.boundary, i2.axis, i2.dofs, i2.other, fun _ => ⟨w, r, hr, rfl, hs, hsv⟩⟩
    have kk : v2.keep_all_files = keep := i2.keeps
    rw [key]
    cases hs : E.solve (c.input E r) r with
    | ok w =>
      simp only [afterSolve]
      cases keep with
      | false =>
        rw [if_neg (by simp [kk])]
        simp only [afterSave]
        refine ⟨done2 w hs (by simp), fun _ => trivial, fun _ => ⟨fun w' hw' _ => ?_, fun m hm => (by cases hm)⟩⟩
        cases hw'; exact ⟨trivial, rfl⟩
      | true =>
        rw [if_pos kk]
        cases hsv : E.save w with
        | ok u =>
          simp only [afterSave]
          refine ⟨done2 w hs (fun _ => hsv), fun _ => trivial, fun _ => ⟨fun w' hw' _ => ?_, fun m hm => (by cases hm)⟩⟩
          cases hw'; exact ⟨trivial, rfl⟩
        | throws m =>
          simp only [afterSave]
          refine ⟨keep2 w, fun h => (by cases h), fun _ => ⟨fun w' hw' hx => ?_, fun m hm => (by cases hm)⟩⟩
          cases hw'; rw [hx (by simp)] at hsv; cases hsv
        | status m =>
          simp only [afterSave]
          refine ⟨keep2 w, fun h => (by cases h), fun _ => ⟨fun w' hw' hx => ?_, fun m hm => (by cases hm)⟩⟩
          cases hw'; rw [hx (by simp)] at hsv; cases hsv
        | abort m =>
          simp only [afterSave]
          refine ⟨keep2 w, fun h => (by cases h), fun _ => ⟨fun w' hw' hx => ?_, fun m hm => (by cases hm)⟩⟩
          cases hw'; rw [hx (by simp)] at hsv; cases hsv
        | ub m =>
          simp only [afterSave]
          refine ⟨keep2 w, fun h => (by cases h), fun _ => ⟨fun w' hw' hx => ?_, fun m hm => (by cases hm)⟩⟩
          cases hw'; rw [hx (by simp)] at hsv; cases hsv
    | throws m => exact ⟨i2, fun h => (by cases h), fun _ => ⟨fun w hw => (by cases hw), fun m' hm => by cases hm; rfl⟩⟩
    | status m => exact ⟨i2, fun h => (by cases h), fun _ => ⟨fun w hw => (by cases hw), fun m' hm => by cases hm⟩⟩
    | abort m => exact ⟨i2, fun h => (by cases h), fun _ => ⟨fun w hw => (by cases hw), fun m' hm => by cases hm⟩⟩
    | ub m => exact ⟨i2, fun h => (by cases h), fun _ => ⟨fun w hw => (by cases hw), fun m' hm => by cases hm⟩⟩
  · have hf : v.need_to_run_code = false := by simpa using hn
    have : run E r v = (v, .ok ()) := by unfold run; rw [hf]; rfl
    rw [this]
    exact ⟨h, fun _ => hf, fun ht => absurd ht hn⟩

theorem step_inv {keep : Bool} {P : Option W → Prop} {c : Conf B O} {v : Vmec B C O W} (hA : AxisLen E)
    (h : Inv E keep P c v) (op : Op B W) (hop : ∀ r, op = .run r → P r) : Inv E keep P (confStep E op c) (step E op v) := by
  cases op with
  | moveBoundary b => exact ⟨h.runnable, h.keeps, h.mpol, h.ntor, rfl, h.axis, h.dofs, h.other, fun hf => by cases hf⟩
  | setBoundary b => exact ⟨h.runnable, h.keeps, h.mpol, h.ntor, rfl, h.axis, h.dofs, h.other, fun hf => by cases hf⟩
  | setDofs x =>
    simp only [step, h.runnable, if_true]
    exact ⟨rfl, h.keeps, h.mpol, h.ntor, h.boundary, h.axis, rfl, h.other, fun hf => by cases hf⟩
  | setMpolNtor mpol ntor =>
    simp only [step, h.runnable, if_true]
    refine ⟨rfl, h.keeps, rfl, rfl, ?_, ?_, h.dofs, ?_, fun hf => by cases hf⟩
    · show E.resizeB mpol ntor v.boundary = E.resizeB mpol ntor c.boundary
      rw [h.boundary]
    · exact hA ntor _ _ h.axis
    · show E.resizeO mpol ntor v.indata.other = E.resizeO mpol ntor c.other
      rw [h.other]
  | run r => exact (run_cases h r (hop r rfl)).1
  | getInput =>
    obtain ⟨v', e, i, _⟩ := setIndata_ok h
    simp only [step, e]
    exact i

theorem steps_inv (hA : AxisLen E) (I : Input C O) (keep : Bool) (P : Option W → Prop) (ops : List (Op B W))
    (hops : ∀ r, .run r ∈ ops → P r) : Inv E keep P (conf E I ops) (steps E ops (initInput E I keep)) := by
  have key : ∀ (l : List (Op B W)) (c : Conf B O) (v : Vmec B C O W), (∀ r, .run r ∈ l → P r) → Inv E keep P c v →
      Inv E keep P (l.foldl (fun c op => confStep E op c) c) (l.foldl (fun v op => step E op v) v) := by
    intro l
    induction l with
    | nil => intro c v _ h; exact h
    | cons op l ih =>
      intro c v hl h
      exact ih _ _ (fun r hr => hl r (List.mem_cons_of_mem _ hr))
        (step_inv hA h op (fun r e => hl r (by rw [e]; exact List.mem_cons_self)))
  exact key ops _ _ hops ⟨rfl, rfl, rfl, rfl, rfl, rfl, rfl, rfl, fun hf => by cases hf⟩

/-- **C105**: after any history of operations on an object from an input file, a number it returns is read off a result of
    the solver for exactly the current surface, degrees of freedom and resolution, started without information of earlier
    runs except for an explicit restart -/
theorem C105_fresh {α : Type} (hA : AxisLen E) (I : Input C O) (keep : Bool) (ops : List (Op B W)) (g : W → α) (a : α)
    (h : (query E g (steps E ops (initInput E I keep))).2 = .ok a) :
    ∃ w r, a = g w ∧ E.solve ((conf E I ops).input E r) r = .ok w ∧ (r = none ∨ .run r ∈ ops) := by
  have hi := steps_inv hA I keep (fun r => r = none ∨ .run r ∈ ops) ops (fun r hr => Or.inr hr)
  obtain ⟨i1, i2, _⟩ := run_cases hi none (Or.inl rfl)
  unfold query at h
  simp only at h
  cases hr : (run E none (steps E ops (initInput E I keep))).2 with
  | ok u =>
    obtain ⟨w, r, p, hw, hs, _⟩ := i1.cache (i2 hr)
    rw [hr] at h
    simp only [hw, Outcome.ok.injEq] at h
    exact ⟨w, r, h.symm, hs, p⟩
  | throws m => rw [hr] at h; cases h
  | status m => rw [hr] at h; cases h
  | abort m => rw [hr] at h; cases h
  | ub m => rw [hr] at h; cases h

/-- **C105**: without restarts the answer is a function of the current configuration alone: two histories that end in the
    same configuration give the same numbers, also if runs failed in between -/
theorem C105_history {α : Type} (hA : AxisLen E) (I : Input C O) (keep : Bool) (ops : List (Op B W)) (g : W → α)
    (hno : ∀ r, .run r ∈ ops → r = none) :
    (∀ w, E.solve ((conf E I ops).input E none) none = .ok w → (keep = true → E.save w = .ok ()) →
      (query E g (steps E ops (initInput E I keep))).2 = .ok (g w)) ∧
    (∀ m, E.solve ((conf E I ops).input E none) none = .throws m →
      (query E g (steps E ops (initInput E I keep))).2 = .throws m) := by
  have hi := steps_inv hA I keep (fun r => r = none) ops hno
  obtain ⟨i1, i2, i3⟩ := run_cases hi none rfl
  by_cases hn : (steps E ops (initInput E I keep)).need_to_run_code = true
  · obtain ⟨c1, c2⟩ := i3 hn
    refine ⟨fun w hs hsv => ?_, fun m hs => ?_⟩
    · obtain ⟨a1, a2⟩ := c1 w hs hsv
      unfold query
      simp only [a1, a2]
    · unfold query
      simp only [c2 m hs]
  · have hf : (steps E ops (initInput E I keep)).need_to_run_code = false := by simpa using hn
    obtain ⟨w0, r, rfl, hw, hs0, _⟩ := hi.cache hf
    have e : run E none (steps E ops (initInput E I keep)) = (steps E ops (initInput E I keep), .ok ()) := by
      unfold run; rw [hf]; rfl
    refine ⟨fun w hs hsv => ?_, fun m hs => ?_⟩
    · rw [hs0] at hs
      cases hs
      unfold query
      simp only [e, hw]
    · rw [hs0] at hs; cases hs

theorem run_cached (v : Vmec B C O W) (r : Option W) (h : v.need_to_run_code = false) : run E r v = (v, .ok ()) := by
  unfold run; rw [h]; rfl

/-- **C105**: after a successful query further queries run nothing and answer from the same result -/
theorem C105_once {α β : Type} (hA : AxisLen E) (I : Input C O) (keep : Bool) (ops : List (Op B W)) (g : W → α) (g' : W → β) (a : α)
    (h : (query E g (steps E ops (initInput E I keep))).2 = .ok a) :
    let v := (query E g (steps E ops (initInput E I keep))).1
    ∃ w, a = g w ∧ query E g' v = (v, .ok (g' w)) := by
  intro v
  have hi := steps_inv hA I keep (fun _ => True) ops (fun _ _ => trivial)
  obtain ⟨i1, i2, _⟩ := run_cases hi none trivial
  simp only [v]
  unfold query at h ⊢
  simp only at h ⊢
  cases hr : (run E none (steps E ops (initInput E I keep))).2 with
  | ok u =>
    obtain ⟨w, r, _, hw, _, _⟩ := i1.cache (i2 hr)
    rw [hr] at h
    simp only [hw, Outcome.ok.injEq] at h ⊢
    refine ⟨w, h.symm, ?_⟩
    rw [run_cached _ none (i2 hr)]
    simp [hw]
  | throws m => rw [hr] at h; cases h
  | status m => rw [hr] at h; cases h
  | abort m => rw [hr] at h; cases h
  | ub m => rw [hr] at h; cases h

/-- an object from an output file answers without a run, until something moves its boundary; from then on it refuses -/
theorem C105_wout_object {α : Type} (v : Vmec B C O W) (w : W) (g : W → α) (h1 : v.runnable = false)
    (h2 : v.need_to_run_code = false) (h3 : v.wout = some w) (b : B) :
    query E g v = (v, .ok (g w)) ∧ ∃ m, (query E g (step E (.moveBoundary b) v)).2 = .throws m := by
  constructor
  · unfold query run
    simp [h2, h3]
  · refine ⟨"RuntimeError: Cannot run a Vmec object that was initialized from a wout file.", ?_⟩
    unfold query run step
    simp [h1]

/-! ## example and failure -/

/-- a solver that returns the first degree of freedom plus the boundary plus the rest of the input -/
noncomputable def exE : Ext ℝ ℝ ℝ ℝ where
  fit _ _ b := b
  load _ _ c := c
  resizeB _ _ b := b
  resizeO _ _ o := o
  resizeA n _ := List.replicate n.toNat 0
  lastStage o := o
  solve I _ := .ok (I.coeffs + I.other + I.dofs.sum)
  save _ := .ok ()

def exI : Input ℝ ℝ := ⟨5, 4, 1, [1, 1], [0, 0, 2, 0, 0], 10⟩

example : AxisLen exE := by intro n a b _; simp [exE]

/-- the hypotheses of the theorems hold in this history, and the answer is the one of the new boundary -/
example : (query exE id (steps exE [.run none, .moveBoundary 3] (initInput exE exI false))).2 = .ok 15 := by
  refine (C105_history (by intro n a b _; simp [exE]) exI false _ id ?_).1 15 ?_ (by simp)
  · intro r hr; simp at hr; exact hr
  · simp [conf, confStep, Conf.input, exE, exI]; norm_num

/-- F110: `vmec.indata` is public and documented to be changed by the user; such a change does not invalidate the cache, and
    the old number is returned although the input written to a file is the new one -/
theorem C105_edit_stale : ∃ (v : Vmec ℝ ℝ ℝ ℝ),
    (query exE id v).2 = .ok 13 ∧ (query exE id (editOther 20 (query exE id v).1)).2 = .ok 13 ∧
    (query exE id (editOther 20 v)).2 = .ok 23 := by
  have h0 : setIndata exE { initInput exE exI false with iter := 0 } = .ok { initInput exE exI false with iter := 0, indata := ⟨5, 4, 1, [0, 0], [0, 0, 2, 0, 0], 10⟩ } := rfl
  refine ⟨initInput exE exI false, ?_, ?_, ?_⟩
  · show Outcome.ok (id ((1 : ℝ) + 10 + [(0 : ℝ), 0, 2, 0, 0].sum)) = _
    norm_num
  · show Outcome.ok (id ((1 : ℝ) + 10 + [(0 : ℝ), 0, 2, 0, 0].sum)) = _
    norm_num
  · show Outcome.ok (id ((1 : ℝ) + 20 + [(0 : ℝ), 0, 2, 0, 0].sum)) = _
    norm_num

end Verif.PySimsopt
