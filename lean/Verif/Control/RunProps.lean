import Verif.Control.Run
import Verif.Control.Props
import Mathlib.Data.List.Infix

/-!
# Properties C49 and C51: the multigrid schedule
-/
namespace Verif.Control
open Verif

variable {X V : Type}

/-! ## Specification -/

/-- the entries of a schedule that are not coarser than the ones before them -/
def selected (nsMin : Int) : List Grid → List Grid
  | [] => []
  | g :: t => if g.ns < nsMin then selected nsMin t else g :: selected g.ns t

/-- the stages that were executed, oldest first -/
def executed (tr : List Entry) : List Grid :=
  tr.reverse.map (fun a => { ns := a.ns, ftol := a.ftol, niter := a.niter })

/-- a stage that ended normally, converged or not -/
def Entry.fine (a : Entry) : Prop :=
  a.ret = .done ∧ (a.status = .normal ∨ a.status = .success)

/-! ## Helper lemmas -/

def PassRet.state : PassRet X V → RunSt X V
  | .finished st => st
  | .givingUp st => st
  | .failed _ st => st

theorem fine_iff (a : VmecStatus) : a.fine = true ↔ a = .normal ∨ a = .success := by
  cases a <;> simp [VmecStatus.fine]

theorem solveGrid_trace (r : RunEnv X V) (g : Grid) (st : RunSt X V) :
    ∃ a, (solveGrid r g st).2.trace = a :: st.trace ∧ a.ns = g.ns ∧ a.ftol = g.ftol ∧
      a.niter = g.niter ∧ a.nsOld = st.nsOld ∧ a.ret = (solveGrid r g st).1 ∧
      a.status = (solveGrid r g st).2.s.status ∧ (solveGrid r g st).2.nsOld = g.ns ∧
      a.lam = (if st.nsOld ≠ g.ns then some g.ns else st.lam) :=
  ⟨_, rfl, rfl, rfl, rfl, rfl, rfl, rfl, rfl, rfl⟩

theorem executed_cons (a : Entry) (t : List Entry) :
    executed (a :: t) = executed t ++ [{ ns := a.ns, ftol := a.ftol, niter := a.niter }] := by
  simp [executed]

theorem executed_append (a b : List Entry) : executed (a ++ b) = executed b ++ executed a := by
  simp [executed]

/-- the update interval is usable at the start of a stage -/
def IntOk (r : RunEnv X V) (st : RunSt X V) : Prop :=
  r.base.lfreeb = true → st.nsOld = 0 ∨ 1 ≤ st.s.nvacskip

/-- the grid of an executed stage -/
def Entry.grid (a : Entry) : Grid := { ns := a.ns, ftol := a.ftol, niter := a.niter }

/-- what one pass over the schedule does -/
structure PassSpec (r : RunEnv X V) (gs : List Grid) (nsMin : Int) (st : RunSt X V)
    (res : PassRet X V) (new : List Entry) : Prop where
  trace : res.state.trace = new ++ st.trace
  pre : executed new <+: selected nsMin gs
  status : ∀ a t, new = a :: t → res.state.s.status = a.status
  fine : ∀ a t, new = a :: t → ∀ b ∈ t, b.fine
  mono : ∀ a ∈ new, a.nsOld ≤ a.ns
  lam : ∀ a ∈ new, a.lam = if a.nsOld ≠ a.ns then some a.ns else none
  lamOk : gs.Pairwise (fun a b => a.ns < b.ns) → (∀ g ∈ gs, st.nsOld < g.ns) →
    ∀ a ∈ new, a.lam = some a.ns
  tol : 1 ≤ nsMin → (∀ g ∈ gs, 1 ≤ g.niter) → 1 ≤ r.nvacskip → IntOk r st →
    ∀ a t, new = a :: t → a.status = .success → Succ (stageEnv r a.grid) res.state.s
  finished : ∀ st', res = .finished st' → executed new = selected nsMin gs ∧ (∀ a ∈ new, a.fine) ∧
        (new = [] → st'.s = st.s)
  givingUp : ∀ st', res = .givingUp st' →
    r.base.keepGoing = true ∧ ∃ a t, new = a :: t ∧ a.ret = .done ∧ ¬ a.fine
  failed : ∀ x st', res = .failed x st' →
    ∃ a t, new = a :: t ∧ ¬ a.fine ∧ (a.ret = .done → r.base.keepGoing = false)

theorem pass_spec (r : RunEnv X V) (gs : List Grid) : ∀ (nsMin : Int) (st : RunSt X V),
    st.nsOld ≤ nsMin → ∃ new, PassSpec r gs nsMin st (pass r gs nsMin st) new := by
  induction gs with
  | nil =>
    intro nsMin st _
    refine ⟨[], rfl, by simp [executed], by simp, by simp, by simp, by simp, by simp, by simp,
      ?_, ?_, ?_⟩
    · intro st' h
      rw [pass] at h
      injection h with h
      exact ⟨by simp [executed, selected], by simp, fun _ => by rw [← h]⟩
    · intro st' h; simp [pass] at h
    · intro x st' h; simp [pass] at h
  | cons g t ih =>
    intro nsMin st hle
    rw [pass]
    by_cases hs : g.ns < nsMin
    · rw [if_pos hs]
      obtain ⟨new, h1, h2, h3, h4, h5, h6, hl, hT, h7, h8, h9⟩ := ih nsMin { st with lam := none } hle
      refine ⟨new, h1, ?_, h3, h4, h5, h6, ?_, ?_, ?_, h8, h9⟩
      · rw [selected, if_pos hs]; exact h2
      · intro p1 p2
        exact hl (List.pairwise_cons.1 p1).2 (fun g' hg' => p2 g' (List.mem_cons_of_mem _ hg'))
      · intro p1 p2
        exact hT p1 (fun g' hg' => p2 g' (List.mem_cons_of_mem _ hg'))
      · rw [selected, if_pos hs]
        exact h7
    · rw [if_neg hs]
      obtain ⟨a, k1, k2, k3, k4, k5, k6, k7, k8, k9⟩ := solveGrid_trace r g { st with lam := none }
      dsimp only at k1 k5 k9
      have hsel : selected nsMin (g :: t) = g :: selected g.ns t := by rw [selected, if_neg hs]
      have hex : executed [a] = [g] := by
        simp only [executed, List.reverse_cons, List.reverse_nil, List.nil_append, List.map_cons,
          List.map_nil, k2, k3, k4]
      have hp : executed [a] <+: selected nsMin (g :: t) := by
        rw [hsel, hex]; exact ⟨_, rfl⟩
      have hmono : a.nsOld ≤ a.ns := by rw [k5, k2]; omega
      have hlam : a.lam = if a.nsOld ≠ a.ns then some a.ns else none := by rw [k9, k5, k2]
      have hag : a.grid = g := by unfold Entry.grid; rw [k2, k3, k4]
      have hlamI : st.nsOld < g.ns → a.lam = some a.ns := by
        intro hlt; rw [k9, k2, if_pos (by omega)]
      have hout : 1 ≤ nsMin → 1 ≤ g.niter → 1 ≤ r.nvacskip → IntOk r st →
          (a.status = .success → Succ (stageEnv r g) (solveGrid r g { st with lam := none }).2.s) ∧
          IntOk r (solveGrid r g { st with lam := none }).2 := by
        intro p1 p2 p3 p4
        have hiv : (stageEnv r g).lfreeb = true →
            1 ≤ (if decide (st.nsOld ≠ g.ns) = true then r.nvacskip else st.s.nvacskip) := by
          intro hf
          by_cases hq : st.nsOld ≠ g.ns
          · rw [if_pos (by simpa using hq)]; exact p3
          · rw [if_neg (by simpa using hq)]
            rcases p4 hf with h0 | h0
            · omega
            · exact h0
        constructor
        · intro hst
          exact (stage_final (stageEnv r g) r.nvacskip _ _ _ st.s p2 hiv).succ (k7 ▸ hst)
        · intro hf
          exact Or.inr ((C21_no_zero_modulus (stageEnv r g) r.nvacskip _ _ _ st.s hiv).2 hf)
      generalize solveGrid r g { st with lam := none } = out at *
      have single : ∀ res : PassRet X V, res.state = out.2 → ¬ a.fine →
          ((∃ st', res = .givingUp st') ∧ r.base.keepGoing = true ∧ a.ret = .done ∨
            (∃ x st', res = .failed x st') ∧ (a.ret = .done → r.base.keepGoing = false)) →
          PassSpec r (g :: t) nsMin st res [a] := by
        intro res hres hnf hk
        refine ⟨by rw [hres, k1]; rfl, hp, ?_, ?_, ?_, ?_, ?_, ?_, ?_, ?_, ?_⟩
        · intro b t' hb; injection hb with hb _; rw [hres, ← hb, k7]
        · intro b t' hb; injection hb with _ hb; rw [← hb]; simp
        · simpa using hmono
        · simpa using hlam
        · intro p1 p2 b hb
          simp at hb; rw [hb]
          exact hlamI (p2 g (List.mem_cons_self ..))
        · intro p1 p2 p3 p4 b t' hb
          injection hb with hb _
          subst hb
          rw [hag, hres]
          exact (hout p1 (p2 g (List.mem_cons_self ..)) p3 p4).1
        · intro st' h
          rcases hk with ⟨⟨st', rfl⟩, -⟩ | ⟨⟨x, st', rfl⟩, -⟩ <;> simp at h
        · intro st' h
          rcases hk with ⟨⟨st', rfl⟩, h1, h2⟩ | ⟨⟨x, st', rfl⟩, -⟩
          · exact ⟨h1, a, [], rfl, h2, hnf⟩
          · simp at h
        · intro x st' h
          rcases hk with ⟨⟨st', rfl⟩, h1, h2⟩ | ⟨⟨x, st', rfl⟩, h1⟩
          · simp at h
          · exact ⟨a, [], rfl, hnf, h1⟩
      by_cases hd : out.1 = .done
      · by_cases hf : out.2.s.status.fine = true
        · have hfine : a.fine := ⟨k6.trans hd, by rw [k7]; exact (fine_iff _).1 hf⟩
          have hres : afterStage r out (fun st => pass r t g.ns st) = pass r t g.ns out.2 := by
            unfold afterStage; rw [hd]; simp [hf]
          rw [hres]
          obtain ⟨new, h1, h2, h3, h4, h5, h6, hl, hT, h7, h8, h9⟩ := ih g.ns out.2 (by omega)
          have hnil : new = [] → (pass r t g.ns out.2).state.s = out.2.s := by
            intro hn
            cases hres : pass r t g.ns out.2 with
            | finished st' => exact (h7 st' hres).2.2 hn
            | givingUp st' => obtain ⟨_, _, _, hh, _⟩ := h8 st' hres; rw [hn] at hh; simp at hh
            | failed x st' => obtain ⟨_, _, hh, _⟩ := h9 x st' hres; rw [hn] at hh; simp at hh
          refine ⟨new ++ [a], ?_, ?_, ?_, ?_, ?_, ?_, ?_, ?_, ?_, ?_, ?_⟩
          · rw [h1, k1, List.append_assoc]; rfl
          · rw [executed_append, hex, hsel]
            obtain ⟨w, hw⟩ := h2
            exact ⟨w, by rw [← hw]; rfl⟩
          · intro b t' hb
            cases new with
            | nil =>
              rw [List.nil_append] at hb
              injection hb with hb _
              rw [← hb, k7]
              exact congrArg St.status (hnil rfl)
            | cons c new =>
              injection hb with hb _
              subst hb
              exact h3 _ _ rfl
          · intro b t' hb d hd'
            cases new with
            | nil =>
              rw [List.nil_append] at hb
              injection hb with _ hb
              rw [← hb] at hd'; simp at hd'
            | cons c new =>
              injection hb with hb1 hb
              rw [← hb] at hd'
              rcases List.mem_append.1 hd' with hd' | hd'
              · exact h4 _ _ rfl d hd'
              · simp at hd'; rw [hd']; exact hfine
          · intro b hb
            rcases List.mem_append.1 hb with hb | hb
            · exact h5 b hb
            · simp at hb; rw [hb]; exact hmono
          · intro b hb
            rcases List.mem_append.1 hb with hb | hb
            · exact h6 b hb
            · simp at hb; rw [hb]; exact hlam
          · intro p1 p2 b hb
            rcases List.mem_append.1 hb with hb | hb
            · exact hl (List.pairwise_cons.1 p1).2 (fun g' hg' => by
                rw [k8]; exact (List.pairwise_cons.1 p1).1 g' hg') b hb
            · simp at hb; rw [hb]; exact hlamI (p2 g (List.mem_cons_self ..))
          · intro p1 p2 p3 p4 b t' hb hst
            obtain ⟨o1, o2⟩ := hout p1 (p2 g (List.mem_cons_self ..)) p3 p4
            cases new with
            | nil =>
              rw [List.nil_append] at hb
              injection hb with hb _
              subst hb
              rw [hag, hnil rfl]
              exact o1 hst
            | cons c new =>
              injection hb with hb _
              subst hb
              exact hT (by omega) (fun g' hg' => p2 g' (List.mem_cons_of_mem _ hg')) p3 o2 _ _ rfl hst
          · intro st' h
            refine ⟨?_, ?_, by simp⟩
            · rw [executed_append, hex, hsel, (h7 st' h).1]; rfl
            · intro b hb
              rcases List.mem_append.1 hb with hb | hb
              · exact (h7 st' h).2.1 b hb
              · simp at hb; rw [hb]; exact hfine
          · intro st' h
            obtain ⟨q1, b, t', q2, q3, q4⟩ := h8 st' h
            exact ⟨q1, b, t' ++ [a], by rw [q2]; rfl, q3, q4⟩
          · intro x st' h
            obtain ⟨b, t', q2, q3, q4⟩ := h9 x st' h
            exact ⟨b, t' ++ [a], by rw [q2]; rfl, q3, q4⟩
        · have hnf : ¬ a.fine := fun h => hf ((fine_iff _).2 (k7 ▸ h.2))
          by_cases hk : r.base.keepGoing = true
          · have hres : afterStage r out (fun st => pass r t g.ns st) = .givingUp out.2 := by
              unfold afterStage; rw [hd]; simp [hf, hk]
            rw [hres]
            exact ⟨[a], single _ rfl hnf (Or.inl ⟨⟨_, rfl⟩, hk, k6.trans hd⟩)⟩
          · have hres : afterStage r out (fun st => pass r t g.ns st) = .failed .error out.2 := by
              unfold afterStage; rw [hd]; simp [hf, hk]
            rw [hres]
            exact ⟨[a], single _ rfl hnf (Or.inr ⟨⟨_, _, rfl⟩, fun _ => by simpa using hk⟩)⟩
      · have hnf : ¬ a.fine := fun h => hd (k6 ▸ h.1)
        refine ⟨[a], ?_⟩
        have hres : ∃ x, afterStage r out (fun st => pass r t g.ns st) = .failed x out.2 := by
          unfold afterStage
          cases ho : out.1 with
          | done => exact absurd ho hd
          | cancelled => exact ⟨_, rfl⟩
          | error => exact ⟨_, rfl⟩
          | ub => exact ⟨_, rfl⟩
        obtain ⟨x, hx⟩ := hres
        rw [hx]
        exact single _ rfl hnf (Or.inr ⟨⟨_, _, rfl⟩, fun h => absurd (k6 ▸ h) hd⟩)

/-- a run of a schedule with at least one usable entry is one pass -/
theorem run_pass (r : RunEnv X V) (s : St X V) (lam : Option Int) (niterv : Int)
    (h : selected 3 r.grids ≠ []) :
    ∃ st new, st.nsOld = 0 ∧ st.trace = [] ∧ PassSpec r r.grids 3 st (pass r r.grids 3 st) new ∧
      new ≠ [] ∧
      (run r s lam niterv).2 = (pass r r.grids 3 st).state ∧
      (run r s lam niterv).1 = (match pass r r.grids 3 st with
        | .failed ret _ => .failed ret
        | .givingUp st' => (conclude r st').1
        | .finished st' => (conclude r st').1) := by
  let st0 : RunSt X V :=
    { s := { s with delt0r := r.base.delt }, nsOld := 0, lam := lam, niterv := niterv, trace := [] }
  have e1 : (enterPass r st0).nsOld = 0 := by unfold enterPass; split <;> rfl
  have e2 : (enterPass r st0).trace = [] := by unfold enterPass; split <;> rfl
  obtain ⟨new, hp⟩ := pass_spec r r.grids 3 (enterPass r st0) (by omega)
  have hne : new ≠ [] := by
    intro hn
    cases hres : pass r r.grids 3 (enterPass r st0) with
    | finished st' =>
      have := (hp.finished st' hres).1
      rw [hn] at this
      exact h this.symm
    | givingUp st' => obtain ⟨_, _, _, hh, _⟩ := hp.givingUp st' hres; rw [hn] at hh; simp at hh
    | failed x st' => obtain ⟨_, _, hh, _⟩ := hp.failed x st' hres; rw [hn] at hh; simp at hh
  refine ⟨enterPass r st0, new, e1, e2, hp, hne, ?_, ?_⟩
  all_goals
    unfold run
    dsimp only
    cases hres : pass r r.grids 3 (enterPass r st0) with
    | failed x st' => rfl
    | givingUp st' =>
      first | rfl | (dsimp only [conclude, PassRet.state]; split <;> rfl)
    | finished st' =>
      have hb : st'.s.status ≠ .badJacobian := by
        obtain ⟨a, t, rfl⟩ : ∃ a t, new = a :: t := by
          cases new with
          | nil => exact absurd rfl hne
          | cons a t => exact ⟨a, t, rfl⟩
        have h1 := hp.status a t rfl
        rw [hres] at h1
        have h2 := (hp.finished st' hres).2.1 a (List.mem_cons_self ..)
        rw [show st'.s.status = a.status from h1]
        rcases h2.2 with h2 | h2 <;> rw [h2] <;> simp
      dsimp only
      rw [if_pos hb]
      all_goals (dsimp only [conclude, PassRet.state]; split <;> rfl)

/-! ## C49 -/

/-- **C49**: the stages executed are, in order and with their own tolerance and iteration limit, an
initial part of the schedule entries that are not coarser than the ones before; every stage before
the last executed one ended normally, so a run stops at the first failure. -/
theorem C49_order (r : RunEnv X V) (s : St X V) (lam : Option Int) (niterv : Int)
    (h : selected 3 r.grids ≠ []) :
    executed (run r s lam niterv).2.trace <+: selected 3 r.grids ∧
    (∀ a t, (run r s lam niterv).2.trace = a :: t → ∀ b ∈ t, b.fine) ∧
    (∀ a ∈ (run r s lam niterv).2.trace, a.nsOld ≤ a.ns) := by
  obtain ⟨st, new, h1, h2, h3, h4, h5, h6⟩ := run_pass r s lam niterv h
  have ht : (run r s lam niterv).2.trace = new := by rw [h5, h3.trace, h2, List.append_nil]
  rw [ht]
  exact ⟨h3.pre, h3.fine, h3.mono⟩

/-- **C49**: unless unconverged output was requested, results are returned only after every selected
entry has been solved and the last one reached its tolerance status. -/
theorem C49_success (r : RunEnv X V) (s : St X V) (lam : Option Int) (niterv : Int)
    (h : selected 3 r.grids ≠ []) (hk : r.base.keepGoing = false)
    (ho : (run r s lam niterv).1 = .outputs) :
    executed (run r s lam niterv).2.trace = selected 3 r.grids ∧
    (∀ a ∈ (run r s lam niterv).2.trace, a.fine) ∧
    ∃ a t, (run r s lam niterv).2.trace = a :: t ∧ a.status = .success := by
  obtain ⟨st, new, h1, h2, h3, h4, h5, h6⟩ := run_pass r s lam niterv h
  have ht : (run r s lam niterv).2.trace = new := by rw [h5, h3.trace, h2, List.append_nil]
  rw [ht]
  rw [ho] at h6
  cases hres : pass r r.grids 3 st with
  | failed x st' => rw [hres] at h6; simp at h6
  | givingUp st' => have := (h3.givingUp st' hres).1; rw [hk] at this; simp at this
  | finished st' =>
    rw [hres] at h6
    obtain ⟨f1, f2, -⟩ := h3.finished st' hres
    refine ⟨f1, f2, ?_⟩
    obtain ⟨a, t, rfl⟩ : ∃ a t, new = a :: t := by
      cases new with
      | nil => exact absurd rfl h4
      | cons a t => exact ⟨a, t, rfl⟩
    refine ⟨a, t, rfl, ?_⟩
    have hs := h3.status a t rfl
    rw [hres] at hs
    rw [← hs]
    by_contra hne
    have hne' : st'.s.status ≠ .success := hne
    simp [conclude, hne', hk] at h6

/-- **C49** with **C15**: results are only returned when the last force evaluation of the whole run
delivered residuals within the tolerance of the last entry of the schedule. -/
theorem C49_last_tolerance (r : RunEnv X V) (s : St X V) (lam : Option Int) (niterv : Int)
    (h : selected 3 r.grids ≠ []) (hk : r.base.keepGoing = false)
    (hn : ∀ g ∈ r.grids, 1 ≤ g.niter) (hv : 1 ≤ r.nvacskip)
    (ho : (run r s lam niterv).1 = .outputs) :
    ∃ g fr fz fl, (selected 3 r.grids).getLast? = some g ∧
      lastResult (run r s lam niterv).2.s.log = some (.residuals fr fz fl) ∧
      WithinTolerance g.ftol fr fz fl := by
  obtain ⟨c1, -, a, t, c3, c4⟩ := C49_success r s lam niterv h hk ho
  obtain ⟨st, new, h1, h2, h3, h4, h5, h6⟩ := run_pass r s lam niterv h
  have ht : (run r s lam niterv).2.trace = new := by rw [h5, h3.trace, h2, List.append_nil]
  obtain ⟨x, fr, fz, fl, -, q1, q2, -⟩ :=
    h3.tol (by omega) hn hv (fun _ => Or.inl h1) a t (ht ▸ c3) c4
  refine ⟨a.grid, fr, fz, fl, ?_, by rw [h5]; exact q1, q2⟩
  rw [← c1, c3, executed_cons]
  simp [Entry.grid]

namespace Demo

/-- a run over the given radial resolutions -/
def runEnv (ns : List Int) (f : Nat → Phys) (keep : Bool := false) : RunEnv Int Int :=
  { base := { env f with keepGoing := keep }, nvacskip := 6, x0 := fun _ _ s => s.x,
    grids := ns.map (fun n => { ns := n, ftol := .fin (1 / 10 ^ n.toNat), niter := 50 }) }

end Demo

/-- a schedule with a coarser entry in between: it is skipped, the others are solved in order -/
example : (run (Demo.runEnv [5, 4, 9] Demo.good) Demo.start none 0).1 = .outputs ∧
    executed (run (Demo.runEnv [5, 4, 9] Demo.good) Demo.start none 0).2.trace =
      [⟨5, .fin (1 / 10 ^ 5), 50⟩, ⟨9, .fin (1 / 10 ^ 9), 50⟩] := by decide +kernel

/-- the first stage fails: nothing else is executed -/
example : (run (Demo.runEnv [5, 9] (fun n => if n < 2 then Demo.res 1 else Demo.nan)) Demo.start none 0).1
      = .failed .error ∧
    executed (run (Demo.runEnv [5, 9] (fun n => if n < 2 then Demo.res 1 else Demo.nan))
      Demo.start none 0).2.trace = [⟨5, .fin (1 / 10 ^ 5), 50⟩] := by decide +kernel

/-! ## C51 -/

/-- **C51** (partial): when the schedule strictly increases, every stage runs with the lambda scale
computed for its own radial grid.  Missing: schedules that repeat a resolution, which the input check
accepts (`vmec_indata.cc:1288-1310`); for them the claim is false (`C51_repeated_resolution`). -/
theorem C51_lambda_scale_partial (r : RunEnv X V) (s : St X V) (lam : Option Int) (niterv : Int)
    (h : selected 3 r.grids ≠ []) (hinc : r.grids.Pairwise (fun a b => a.ns < b.ns))
    (hpos : ∀ g ∈ r.grids, 0 < g.ns)
    (a : Entry) (ha : a ∈ (run r s lam niterv).2.trace) : a.lam = some a.ns := by
  obtain ⟨st, new, h1, h2, h3, h4, h5, h6⟩ := run_pass r s lam niterv h
  have ht : (run r s lam niterv).2.trace = new := by rw [h5, h3.trace, h2, List.append_nil]
  rw [ht] at ha
  exact h3.lamOk hinc (by rw [h1]; exact hpos) a ha

example : ((run (Demo.runEnv [5, 9] Demo.good) Demo.start none 0).2.trace.map (·.lam)) =
    [some 9, some 5] := by decide +kernel

/-- **C51**, disagreement with the code: the second of two equal entries is executed, and it runs with
a lambda scale that was reset to zero and never computed again. -/
theorem C51_repeated_resolution :
    ∃ a ∈ (run (Demo.runEnv [5, 5] Demo.good) Demo.start none 0).2.trace, a.ns = 5 ∧ a.lam = none := by
  refine ⟨⟨5, .fin (1 / 10 ^ 5), 50, 5, none, .done, .success⟩, ?_⟩
  decide +kernel

end Verif.Control
