import Mathlib.Data.Set.Basic
import Mathlib.Logic.Basic
import Mathlib.Data.List.Induction
import Mathlib.Tactic.ByContra
import Mathlib.Tactic.Use

/-!
# Worksharing loops of OpenMP (`#pragma omp for`)

A loop whose iterations are handed out to a team of threads. An iteration is a list of operations on the shared memory and on the private
memory of the thread that runs it; the private memory survives from one iteration to the next one of the same thread. One operation of one
thread is one step. A thread without work may take any iteration that has not been started, so that every `schedule` (static with any chunk
size, dynamic, guided) and every relative speed of the threads is an execution of this machine. Sequential consistency, which OpenMP
guarantees for programs without data races.
-/
namespace Verif.ParFor

/-- an operation of a thread: `L` shared locations, `P` private locations, `V` values -/
inductive Op (L P V : Type) where
  | load (r : P) (a : L)
  | set (r : P) (f : (P → V) → V)
  | store (a : L) (r : P)

section
variable {L P V : Type} [DecidableEq L] [DecidableEq P]

/-- assignment to one location -/
def put {K : Type} [DecidableEq K] (m : K → V) (k : K) (v : V) : K → V := fun k' => if k' = k then v else m k'

/-- effect of one operation on private and shared memory -/
def Op.exec (o : Op L P V) (m : (P → V) × (L → V)) : (P → V) × (L → V) :=
  match o with
  | .load r a => (put m.1 r (m.2 a), m.2)
  | .set r f => (put m.1 r (f m.1), m.2)
  | .store a r => (m.1, put m.2 a (m.1 r))

/-- a sequence of operations without interference -/
def run (ops : List (Op L P V)) (m : (P → V) × (L → V)) : (P → V) × (L → V) := ops.foldl (fun m o => o.exec m) m

/-- the operation reads or writes the shared location `a` -/
def Op.touches (a : L) : Op L P V → Prop
  | .load _ b => b = a
  | .set _ _ => False
  | .store b _ => b = a

/-- the operation writes the shared location `a` -/
def Op.writes (a : L) : Op L P V → Prop
  | .store b _ => b = a
  | _ => False

/-- state of the team `T` in a loop over iterations of type `I` -/
structure State (T I L P V : Type) where
  /-- iterations nobody has started -/
  pool : Set I
  /-- what is left of the iteration a thread is in -/
  cur : T → List (Op L P V)
  priv : T → P → V
  shared : L → V

variable {T I : Type} [DecidableEq T]

/-- one step of one thread: take an iteration, or execute the next operation -/
inductive Step (body : I → List (Op L P V)) (t : T) (σ : State T I L P V) : State T I L P V → Prop where
  | take (i : I) (hi : i ∈ σ.pool) (hc : σ.cur t = []) :
      Step body t σ { σ with pool := {j | j ∈ σ.pool ∧ j ≠ i}, cur := put σ.cur t (body i) }
  | exec (o : Op L P V) (rest : List (Op L P V)) (hc : σ.cur t = o :: rest) :
      Step body t σ { σ with
        cur := put σ.cur t rest
        priv := put σ.priv t (o.exec (σ.priv t, σ.shared)).1
        shared := (o.exec (σ.priv t, σ.shared)).2 }

/-- the team enters the loop with any private memories -/
def initial (all : Set I) (p : T → P → V) (s : L → V) : State T I L P V := ⟨all, fun _ => [], p, s⟩

inductive Reachable (body : I → List (Op L P V)) (σ₀ : State T I L P V) : State T I L P V → Prop where
  | start : Reachable body σ₀ σ₀
  | step {σ σ' : State T I L P V} (t : T) (h : Reachable body σ₀ σ) (hs : Step body t σ σ') : Reachable body σ₀ σ'

/-- the implied barrier at the end of the loop is passed -/
def Finished (σ : State T I L P V) : Prop := σ.pool = ∅ ∧ ∀ t, σ.cur t = []

/-- two threads are about to access the same location, one of them writing -/
def Race (σ : State T I L P V) : Prop :=
  ∃ t u : T, t ≠ u ∧ ∃ o os o' os', σ.cur t = o :: os ∧ σ.cur u = o' :: os' ∧ ∃ a, o.writes a ∧ o'.touches a

/-- the loop without OpenMP: one iteration after the other -/
def serial (body : I → List (Op L P V)) (order : List I) (m : (P → V) × (L → V)) : (P → V) × (L → V) :=
  order.foldl (fun m i => run (body i) m) m

/-- what a loop must satisfy: no iteration touches what another one writes, and the result of an iteration does not depend on what it
    finds in the private memory -/
structure Independent (body : I → List (Op L P V)) (all : Set I) : Prop where
  apart : ∀ i ∈ all, ∀ j ∈ all, i ≠ j → ∀ o ∈ body i, ∀ o' ∈ body j, ∀ a, o.writes a → ¬ o'.touches a
  fresh : ∀ i ∈ all, ∀ (p p' : P → V) (s : L → V), (run (body i) (p, s)).2 = (run (body i) (p', s)).2

/-! ## no interference -/

theorem run_append (a b : List (Op L P V)) (m : (P → V) × (L → V)) : run (a ++ b) m = run b (run a m) := by
  simp [run, List.foldl_append]

theorem run_keep {ops : List (Op L P V)} {a : L} (h : ∀ o ∈ ops, ¬ o.writes a) (m : (P → V) × (L → V)) : (run ops m).2 a = m.2 a := by
  induction ops generalizing m with
  | nil => rfl
  | cons o ops ih =>
    have h1 := ih (fun o' ho' => h o' (List.mem_cons_of_mem _ ho')) (o.exec m)
    have h2 := h o List.mem_cons_self
    show (run ops (o.exec m)).2 a = _
    rw [h1]
    cases o with
    | load r b => rfl
    | set r f => rfl
    | store b r =>
      have : a ≠ b := fun e => h2 e.symm
      simp [Op.exec, put, this]

theorem touches_of_writes {o : Op L P V} {a : L} (h : o.writes a) : o.touches a := by
  cases o <;> simp_all [Op.writes, Op.touches]

/-- invariant; `own t` is the iteration thread `t` is in (or finished last), what it has executed of it and the private memory it began with -/
structure Inv (body : I → List (Op L P V)) (all : Set I) (s₀ : L → V) (own : T → Option (I × List (Op L P V) × (P → V)))
    (σ : State T I L P V) : Prop where
  sub : ∀ i ∈ σ.pool, i ∈ all
  idle : ∀ t, own t = none → σ.cur t = []
  mine : ∀ t i pre p, own t = some (i, pre, p) → i ∈ all ∧ i ∉ σ.pool ∧ pre ++ σ.cur t = body i ∧ σ.priv t = (run pre (p, s₀)).1 ∧
    ∀ a, (∃ o ∈ body i, o.writes a) → σ.shared a = (run pre (p, s₀)).2 a
  once : ∀ t u i pre p pre' p', own t = some (i, pre, p) → own u = some (i, pre', p') → t = u
  free : ∀ a, (∀ i ∈ all, ∀ o ∈ body i, ¬ o.writes a) → σ.shared a = s₀ a
  wait : ∀ i ∈ σ.pool, ∀ a, (∃ o ∈ body i, o.writes a) → σ.shared a = s₀ a
  done : ∀ i ∈ all, i ∉ σ.pool → (∀ t pre p, own t ≠ some (i, pre, p)) → ∀ a, (∃ o ∈ body i, o.writes a) →
    ∀ p, σ.shared a = (run (body i) (p, s₀)).2 a

variable {body : I → List (Op L P V)} {all : Set I} {s₀ : L → V}

theorem inv_initial (p : T → P → V) : Inv body all s₀ (fun _ => none) (initial all p s₀) :=
  { sub := fun _ h => h
    idle := fun _ _ => rfl
    mine := fun _ _ _ _ h => by cases h
    once := fun _ _ _ _ _ _ _ h => by cases h
    free := fun _ _ => rfl
    wait := fun _ _ _ _ => rfl
    done := fun i hi hn => absurd hi hn }

/-- what the running iteration sees of the shared memory is what it would see alone -/
theorem Inv.sees {own : T → Option (I × List (Op L P V) × (P → V))} {σ : State T I L P V} (h : Inv body all s₀ own σ)
    (hI : Independent body all) {t : T} {i : I} {pre : List (Op L P V)} {p : P → V} (ho : own t = some (i, pre, p)) {a : L}
    (hx : ∃ o ∈ body i, o.touches a) : σ.shared a = (run pre (p, s₀)).2 a := by
  obtain ⟨hi, _, hp, _, hw⟩ := h.mine t i pre p ho
  by_cases hwr : ∃ o ∈ body i, o.writes a
  · exact hw a hwr
  · have hpre : (run pre (p, s₀)).2 a = s₀ a := by
      apply run_keep
      intro o hoo hww
      exact hwr ⟨o, by rw [← hp]; exact List.mem_append_left _ hoo, hww⟩
    rw [hpre]
    apply h.free
    intro j hj o ho' hww
    by_cases e : j = i
    · subst e; exact hwr ⟨o, ho', hww⟩
    · obtain ⟨o2, h2, ht⟩ := hx
      exact hI.apart j hj i hi e o ho' o2 h2 a hww ht

theorem Inv.step {own : T → Option (I × List (Op L P V) × (P → V))} {σ σ' : State T I L P V} (h : Inv body all s₀ own σ)
    (hI : Independent body all) {t : T} (hs : Step body t σ σ') : ∃ own', Inv body all s₀ own' σ' := by
  classical
  cases hs with
  | take i hi hc =>
    refine ⟨put own t (some (i, [], σ.priv t)), ?_⟩
    have hia := h.sub i hi
    constructor
    · rintro j ⟨hj, _⟩; exact h.sub j hj
    · intro u hu
      by_cases e : u = t
      · subst e; simp [put] at hu
      · simp only [put, e, if_false] at hu ⊢; exact h.idle u hu
    · intro u j pre p hu
      by_cases e : u = t
      · subst e
        simp only [put, if_true, Option.some.injEq, Prod.mk.injEq] at hu ⊢
        obtain ⟨rfl, rfl, rfl⟩ := hu
        refine ⟨hia, fun hx => hx.2 rfl, rfl, rfl, fun a ha => h.wait i hi a ha⟩
      · simp only [put, e, if_false] at hu ⊢
        obtain ⟨h1, h2, h3, h4, h5⟩ := h.mine u j pre p hu
        exact ⟨h1, fun hx => h2 hx.1, h3, h4, h5⟩
    · intro u v j pre p pre' p' hu hv
      by_cases e : u = t
      · by_cases e' : v = t
        · rw [e, e']
        · simp only [put, e, e', if_true, if_false, Option.some.injEq, Prod.mk.injEq] at hu hv
          obtain ⟨rfl, _⟩ := hu
          exact absurd hi (h.mine v i pre' p' hv).2.1
      · by_cases e' : v = t
        · simp only [put, e, e', if_true, if_false, Option.some.injEq, Prod.mk.injEq] at hu hv
          obtain ⟨rfl, _⟩ := hv
          exact absurd hi (h.mine u i pre p hu).2.1
        · simp only [put, e, e', if_false] at hu hv
          exact h.once u v j pre p pre' p' hu hv
    · exact h.free
    · rintro j ⟨hj, _⟩ a ha; exact h.wait j hj a ha
    · intro j hj hn hno a ha p
      have hji : j ≠ i := by
        rintro rfl
        exact hno t [] (σ.priv t) (by simp [put])
      have hnp : j ∉ σ.pool := fun hx => hn ⟨hx, hji⟩
      by_cases hex : ∃ pre p, own t = some (j, pre, p)
      · obtain ⟨pre, p2, hown⟩ := hex
        obtain ⟨_, _, h3, _, h5⟩ := h.mine t j pre p2 hown
        rw [hc, List.append_nil] at h3
        show σ.shared a = _
        rw [h5 a ha, h3, hI.fresh j hj p2 p s₀]
      · refine h.done j hj hnp ?_ a ha p
        intro u pre p2 hu
        by_cases e : u = t
        · subst e; exact hex ⟨pre, p2, hu⟩
        · exact hno u pre p2 (by simp only [put, e, if_false]; exact hu)
  | exec o rest hc =>
    cases hown : own t with
    | none => have := h.idle t hown; rw [hc] at this; cases this
    | some w =>
      obtain ⟨i, pre, p⟩ := w
      obtain ⟨hi, hnp, hp, hpr, hw⟩ := h.mine t i pre p hown
      rw [hc] at hp
      have hmem : o ∈ body i := by rw [← hp]; simp
      -- the operation has the effect it would have alone
      have hpriv : (o.exec (σ.priv t, σ.shared)).1 = (run (pre ++ [o]) (p, s₀)).1 := by
        rw [run_append]
        cases o with
        | load r a =>
          have := h.sees hI hown (a := a) ⟨_, hmem, rfl⟩
          show put (σ.priv t) r (σ.shared a) = put (run pre (p, s₀)).1 r ((run pre (p, s₀)).2 a)
          rw [hpr, this]
        | set r f =>
          show put (σ.priv t) r (f (σ.priv t)) = put (run pre (p, s₀)).1 r (f (run pre (p, s₀)).1)
          rw [hpr]
        | store a r => exact hpr
      have hmine : ∀ a, (∃ o ∈ body i, o.writes a) → (o.exec (σ.priv t, σ.shared)).2 a = (run (pre ++ [o]) (p, s₀)).2 a := by
        intro a ha
        rw [run_append]
        have e := hw a ha
        cases o with
        | load r b => exact e
        | set r f => exact e
        | store b r =>
          show put σ.shared b (σ.priv t r) a = put (run pre (p, s₀)).2 b ((run pre (p, s₀)).1 r) a
          simp only [put]; rw [hpr, e]
      have hother : ∀ a, ¬ o.writes a → (o.exec (σ.priv t, σ.shared)).2 a = σ.shared a := by
        intro a ha
        cases o with
        | load r b => rfl
        | set r f => rfl
        | store b r =>
          have : a ≠ b := fun e => ha e.symm
          simp [Op.exec, put, this]
      have hapart : ∀ j ∈ all, j ≠ i → ∀ a, (∃ o ∈ body j, o.writes a) → ¬ o.writes a := by
        rintro j hj hji a ⟨o2, h2, hw2⟩ hww
        exact hI.apart j hj i hi hji o2 h2 o hmem a hw2 (touches_of_writes hww)
      refine ⟨put own t (some (i, pre ++ [o], p)), ?_⟩
      constructor
      · exact h.sub
      · intro u hu
        by_cases e : u = t
        · subst e; simp [put] at hu
        · simp only [put, e, if_false] at hu ⊢; exact h.idle u hu
      · intro u j pre' p' hu
        by_cases e : u = t
        · subst e
          simp only [put, if_true, Option.some.injEq, Prod.mk.injEq] at hu ⊢
          obtain ⟨rfl, rfl, rfl⟩ := hu
          exact ⟨hi, hnp, by simpa using hp, hpriv, hmine⟩
        · simp only [put, e, if_false] at hu ⊢
          obtain ⟨h1, h2, h3, h4, h5⟩ := h.mine u j pre' p' hu
          refine ⟨h1, h2, h3, h4, fun a ha => ?_⟩
          have hji : j ≠ i := by
            rintro rfl
            exact e (h.once u t j pre' p' pre p hu hown)
          show (o.exec (σ.priv t, σ.shared)).2 a = _
          rw [hother a (hapart j h1 hji a ha)]; exact h5 a ha
      · intro u v j pre1 p1 pre2 p2 hu hv
        by_cases e : u = t
        · by_cases e' : v = t
          · rw [e, e']
          · simp only [put, e, e', if_true, if_false, Option.some.injEq, Prod.mk.injEq] at hu hv
            obtain ⟨rfl, _⟩ := hu
            exact absurd (h.once v t i pre2 p2 pre p hv hown) e'
        · by_cases e' : v = t
          · simp only [put, e, e', if_true, if_false, Option.some.injEq, Prod.mk.injEq] at hu hv
            obtain ⟨rfl, _⟩ := hv
            exact absurd (h.once u t i pre1 p1 pre p hu hown) e
          · simp only [put, e, e', if_false] at hu hv
            exact h.once u v j pre1 p1 pre2 p2 hu hv
      · intro a ha
        show (o.exec (σ.priv t, σ.shared)).2 a = _
        rw [hother a (ha i hi o hmem)]; exact h.free a ha
      · intro j hj a ha
        have hji : j ≠ i := by rintro rfl; exact hnp hj
        show (o.exec (σ.priv t, σ.shared)).2 a = _
        rw [hother a (hapart j (h.sub j hj) hji a ha)]; exact h.wait j hj a ha
      · intro j hj hn hno a ha q
        have hji : j ≠ i := by
          rintro rfl
          exact hno t (pre ++ [o]) p (by simp [put])
        show (o.exec (σ.priv t, σ.shared)).2 a = _
        rw [hother a (hapart j hj hji a ha)]
        refine h.done j hj hn ?_ a ha q
        intro u pre2 p2 hu
        by_cases e : u = t
        · subst e; rw [hown] at hu; simp only [Option.some.injEq, Prod.mk.injEq] at hu; exact hji hu.1.symm
        · exact hno u pre2 p2 (by simp only [put, e, if_false]; exact hu)

theorem inv_reachable (hI : Independent body all) (p : T → P → V) {σ : State T I L P V}
    (h : Reachable body (initial all p s₀) σ) : ∃ own, Inv body all s₀ own σ := by
  induction h with
  | start => exact ⟨_, inv_initial p⟩
  | step t _ hs ih => obtain ⟨own, ho⟩ := ih; exact ho.step hI hs

/-- no execution reaches a data race -/
theorem no_race (hI : Independent body all) (p : T → P → V) {σ : State T I L P V} (h : Reachable body (initial all p s₀) σ) : ¬ Race σ := by
  obtain ⟨own, hv⟩ := inv_reachable hI p h
  rintro ⟨t, u, htu, o, os, o', os', hct, hcu, a, hw, ht⟩
  cases hot : own t with
  | none => have := hv.idle t hot; rw [hct] at this; cases this
  | some w =>
    cases hou : own u with
    | none => have := hv.idle u hou; rw [hcu] at this; cases this
    | some w' =>
      obtain ⟨i, pre, q⟩ := w
      obtain ⟨j, pre', q'⟩ := w'
      obtain ⟨hi, _, hp, _⟩ := hv.mine t i pre q hot
      obtain ⟨hj, _, hp', _⟩ := hv.mine u j pre' q' hou
      by_cases e : i = j
      · subst e; exact htu (hv.once t u i pre q pre' q' hot hou)
      · exact hI.apart i hi j hj e o (by rw [← hp, hct]; simp) o' (by rw [← hp', hcu]; simp) a hw ht

/-- the shared memory after the loop -/
theorem finished_shared (hI : Independent body all) (p : T → P → V) {σ : State T I L P V} (h : Reachable body (initial all p s₀) σ)
    (hf : Finished σ) (a : L) :
    (∀ i ∈ all, ∀ o ∈ body i, o.writes a → ∀ q, σ.shared a = (run (body i) (q, s₀)).2 a) ∧
    ((∀ i ∈ all, ∀ o ∈ body i, ¬ o.writes a) → σ.shared a = s₀ a) := by
  obtain ⟨own, hv⟩ := inv_reachable hI p h
  refine ⟨fun i hi o ho hw q => ?_, hv.free a⟩
  have hnp : i ∉ σ.pool := by rw [hf.1]; exact fun h => h
  by_cases hex : ∃ t pre p, own t = some (i, pre, p)
  · obtain ⟨t, pre, p2, hown⟩ := hex
    obtain ⟨_, _, h3, _, h5⟩ := hv.mine t i pre p2 hown
    rw [hf.2 t, List.append_nil] at h3
    rw [h5 a ⟨o, ho, hw⟩, h3, hI.fresh i hi p2 q s₀]
  · exact hv.done i hi hnp (fun t pre p2 h => hex ⟨t, pre, p2, h⟩) a ⟨o, ho, hw⟩ q

/-! ## the serial loop -/

theorem serial_shared (hI : Independent body all) (order : List I) (hsub : ∀ i ∈ order, i ∈ all) (hnd : order.Nodup) (p : P → V) (a : L) :
    (∀ i ∈ order, ∀ o ∈ body i, o.writes a → ∀ q, (serial body order (p, s₀)).2 a = (run (body i) (q, s₀)).2 a) ∧
    ((∀ i ∈ order, ∀ o ∈ body i, ¬ o.writes a) → (serial body order (p, s₀)).2 a = s₀ a) := by
  classical
  -- an iteration executed on a memory that agrees with `s₀` where it looks
  have key : ∀ i ∈ all, ∀ (pre : List (Op L P V)), (∀ o ∈ pre, o ∈ body i) → ∀ (q : P → V) (s : L → V),
      (∀ a, (∃ o ∈ body i, o.touches a) → s a = s₀ a) →
      (run pre (q, s)).1 = (run pre (q, s₀)).1 ∧ ∀ a, (∃ o ∈ body i, o.touches a) → (run pre (q, s)).2 a = (run pre (q, s₀)).2 a := by
    intro i _ pre
    induction pre using List.reverseRecOn with
    | nil => intro _ q s hs; exact ⟨rfl, hs⟩
    | append_singleton pre o ih =>
      intro hpre q s hs
      obtain ⟨h1, h2⟩ := ih (fun o ho => hpre o (List.mem_append_left _ ho)) q s hs
      have hm : o ∈ body i := hpre o (by simp)
      rw [run_append, run_append]
      cases o with
      | load r b =>
        refine ⟨?_, h2⟩
        show put (run pre (q, s)).1 r ((run pre (q, s)).2 b) = put (run pre (q, s₀)).1 r ((run pre (q, s₀)).2 b)
        rw [h1, h2 b ⟨_, hm, rfl⟩]
      | set r f =>
        refine ⟨?_, h2⟩
        show put (run pre (q, s)).1 r (f (run pre (q, s)).1) = put (run pre (q, s₀)).1 r (f (run pre (q, s₀)).1)
        rw [h1]
      | store b r =>
        refine ⟨h1, fun c hc => ?_⟩
        show put (run pre (q, s)).2 b ((run pre (q, s)).1 r) c = put (run pre (q, s₀)).2 b ((run pre (q, s₀)).1 r) c
        simp only [put]; rw [h1, h2 c hc]
  induction order using List.reverseRecOn with
  | nil => exact ⟨fun i hi => (by cases hi), fun _ => rfl⟩
  | append_singleton order j ih =>
    have hnd' := List.nodup_append.mp hnd
    have hjn : j ∉ order := fun hj => (hnd'.2.2 j hj j (by simp)) rfl
    have ih' := ih (fun i hi => hsub i (List.mem_append_left _ hi)) hnd'.1
    have hj : j ∈ all := hsub j (by simp)
    have hser : serial body (order ++ [j]) (p, s₀) = run (body j) (serial body order (p, s₀)) := by
      simp [serial, List.foldl_append]
    rw [hser]
    have hsee : ∀ b, (∃ o ∈ body j, o.touches b) → (serial body order (p, s₀)).2 b = s₀ b := by
      rintro b ⟨o, ho, ht⟩
      have : ∀ i ∈ order, ∀ o' ∈ body i, ¬ o'.writes b := by
        intro i hi o' ho' hw
        have hne : i ≠ j := by rintro rfl; exact hjn hi
        exact hI.apart i (hsub i (List.mem_append_left _ hi)) j hj hne o' ho' o ho b hw ht
      -- the statement of the induction for the location `b`
      have gen : ∀ l : List I, (∀ i ∈ l, i ∈ order) → (serial body l (p, s₀)).2 b = s₀ b := by
        intro l
        induction l using List.reverseRecOn with
        | nil => intro _; rfl
        | append_singleton l k ihl =>
          intro hl
          have e : serial body (l ++ [k]) (p, s₀) = run (body k) (serial body l (p, s₀)) := by simp [serial, List.foldl_append]
          rw [e, run_keep (this k (hl k (by simp)))]
          exact ihl (fun i hi => hl i (List.mem_append_left _ hi))
      exact gen order (fun _ h => h)
    constructor
    · intro i hi o ho hw q
      rcases List.mem_append.mp hi with h | h
      · have hne : i ≠ j := by rintro rfl; exact hjn h
        rw [run_keep]
        · exact ih'.1 i h o ho hw q
        · intro o' ho' hw'
          exact hI.apart i (hsub i hi) j hj hne o ho o' ho' a hw (touches_of_writes hw')
      · simp only [List.mem_singleton] at h
        subst h
        have h2 := (key i hj (body i) (fun _ h => h) (serial body order (p, s₀)).1 (serial body order (p, s₀)).2 hsee).2 a
          ⟨o, ho, touches_of_writes hw⟩
        rw [show serial body order (p, s₀) = ((serial body order (p, s₀)).1, (serial body order (p, s₀)).2) from rfl, h2]
        exact congrFun (hI.fresh i hj _ q s₀) a
    · intro hno
      rw [run_keep (hno j (by simp))]
      exact ih'.2 (fun i hi => hno i (List.mem_append_left _ hi))

/-- every execution of the loop by any team leaves the shared memory of the serial loop -/
theorem finished_serial (hI : Independent body all) (p : T → P → V) {σ : State T I L P V} (h : Reachable body (initial all p s₀) σ)
    (hf : Finished σ) (order : List I) (hall : ∀ i, i ∈ order ↔ i ∈ all) (hnd : order.Nodup) (q : P → V) :
    σ.shared = (serial body order (q, s₀)).2 := by
  funext a
  have h1 := finished_shared hI p h hf a
  have h2 := serial_shared (s₀ := s₀) hI order (fun i hi => (hall i).mp hi) hnd q a
  by_cases hx : ∃ i ∈ all, ∃ o ∈ body i, o.writes a
  · obtain ⟨i, hi, o, ho, hw⟩ := hx
    rw [h1.1 i hi o ho hw q, h2.1 i ((hall i).mpr hi) o ho hw q]
  · have hn : ∀ i ∈ all, ∀ o ∈ body i, ¬ o.writes a := fun i hi o ho hw => hx ⟨i, hi, o, ho, hw⟩
    rw [h1.2 hn, h2.2 (fun i hi => hn i ((hall i).mp hi))]

end
end Verif.ParFor
