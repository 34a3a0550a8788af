import Mathlib.Data.Fintype.BigOperators
import Mathlib.Data.Finset.Basic
import Mathlib.Logic.Function.Basic
import Mathlib.Data.List.FinRange
import Mathlib.Algebra.BigOperators.Fin
import Mathlib.Algebra.Order.BigOperators.Group.Finset
import Mathlib.Tactic.Ring

/-!
# An interleaving machine for OpenMP teams

A parallel region is executed by `n` threads, each running its own program.  The machine knows the
four OpenMP constructs used by VMEC++:

* `act f`    an atomic update of the shared state (`omp critical`, `omp atomic`, or a plain write by
             the only thread that writes the variable),
* `read g`   the thread looks at the shared state and continues with `g s` (this is how branches on
             shared variables are expressed),
* `single f` `omp single nowait`: the first thread that arrives executes `f`, the others skip it;
             as in the OpenMP specification the `i`-th `single` met by one thread is matched with
             the `i`-th `single` met by the others (`omp single` is `single` followed by `barrier`),
* `barrier`  nobody passes until everybody has arrived.

Any thread may move at any time (`Step`); thread-private data live in the continuations.
A thread that has returned never arrives at a barrier: if others wait, the team is stuck.
-/
namespace Verif.Team

/-- program of one thread, with result type `A` -/
inductive Prog (S A : Type) : Type where
  | ret (a : A)
  | act (f : S → S) (k : Prog S A)
  | read (g : S → Prog S A)
  | single (f : S → S) (k : Prog S A)
  | barrier (k : Prog S A)

/-- a team: shared state, number of `single` regions already claimed, and per thread the remaining
    program and the number of `single` regions it has met -/
structure Cfg (n : Nat) (S A : Type) where
  shared : S
  claimed : Nat
  code : Fin n → Prog S A
  cnt : Fin n → Nat

open Function (update)

/-- one step of one thread, or the whole team crossing a barrier -/
inductive Step {n : Nat} {S A : Type} : Cfg n S A → Cfg n S A → Prop where
  | act (c : Cfg n S A) (i : Fin n) (f : S → S) (k : Prog S A) (h : c.code i = .act f k) :
      Step c { c with shared := f c.shared, code := update c.code i k }
  | read (c : Cfg n S A) (i : Fin n) (g : S → Prog S A) (h : c.code i = .read g) :
      Step c { c with code := update c.code i (g c.shared) }
  | claim (c : Cfg n S A) (i : Fin n) (f : S → S) (k : Prog S A) (h : c.code i = .single f k)
      (hc : c.cnt i = c.claimed) :
      Step c { shared := f c.shared, claimed := c.claimed + 1, code := update c.code i k,
               cnt := update c.cnt i (c.cnt i + 1) }
  | skip (c : Cfg n S A) (i : Fin n) (f : S → S) (k : Prog S A) (h : c.code i = .single f k)
      (hc : c.cnt i < c.claimed) :
      Step c { c with code := update c.code i k, cnt := update c.cnt i (c.cnt i + 1) }
  | cross (c : Cfg n S A) (K : Fin n → Prog S A) (h : ∀ i, c.code i = .barrier (K i)) :
      Step c { c with code := K }

/-- reachability -/
inductive Reach {n : Nat} {S A : Type} : Cfg n S A → Cfg n S A → Prop where
  | refl (c : Cfg n S A) : Reach c c
  | tail {a b c : Cfg n S A} (h : Reach a b) (s : Step b c) : Reach a c

/-- `Inevitable P c`: every execution from `c`, whatever the schedule, gets to a configuration
    satisfying `P`; in particular it does not get stuck and does not run forever before. -/
inductive Inevitable {n : Nat} {S A : Type} (P : Cfg n S A → Prop) : Cfg n S A → Prop where
  | here (c : Cfg n S A) (h : P c) : Inevitable P c
  | step (c : Cfg n S A) (hp : ∃ c', Step c c') (h : ∀ c', Step c c' → Inevitable P c') :
      Inevitable P c

/-- all threads at the same place of the `single` numbering -/
def start {n : Nat} {S A : Type} (s : S) (c : Nat) (P : Fin n → Prog S A) : Cfg n S A :=
  { shared := s, claimed := c, code := P, cnt := fun _ => c }

/-- all threads have returned -/
def Finished {n : Nat} {S A : Type} (c : Cfg n S A) (r : Fin n → A) : Prop :=
  ∀ i, c.code i = .ret (r i)

/-- nobody can move although somebody has not returned: the process hangs -/
def Stuck {n : Nat} {S A : Type} (c : Cfg n S A) : Prop :=
  (∀ c', ¬ Step c c') ∧ ∃ i, ∀ a, c.code i ≠ .ret a

variable {n : Nat} {S A : Type}

theorem Inevitable.bind {P Q : Cfg n S A → Prop} {c : Cfg n S A} (h : Inevitable P c)
    (k : ∀ c, P c → Inevitable Q c) : Inevitable Q c := by
  induction h with
  | here c hc => exact k c hc
  | step c hp _ ih => exact .step c hp ih

theorem Inevitable.mono {P Q : Cfg n S A → Prop} {c : Cfg n S A} (h : Inevitable P c)
    (k : ∀ c, P c → Q c) : Inevitable Q c := h.bind fun c hc => .here c (k c hc)

theorem Reach.head {a b c : Cfg n S A} (s : Step a b) (h : Reach b c) : Reach a c := by
  induction h with
  | refl => exact .tail (.refl _) s
  | tail _ s' ih => exact .tail ih s'

theorem Reach.cases_head {a c : Cfg n S A} (h : Reach a c) : a = c ∨ ∃ b, Step a b ∧ Reach b c := by
  induction h with
  | refl => exact .inl rfl
  | tail h s ih =>
    rcases ih with rfl | ⟨b, hs, hr⟩
    · exact .inr ⟨_, s, .refl _⟩
    · exact .inr ⟨b, hs, .tail hr s⟩

/-- an inevitable final configuration is the only one: if `P` configurations cannot move, no
    reachable configuration is stuck unless it satisfies `P` -/
theorem Inevitable.final {P : Cfg n S A → Prop} (hP : ∀ c, P c → ∀ c', ¬ Step c c')
    {c : Cfg n S A} (h : Inevitable P c) {d : Cfg n S A} (hr : Reach c d) :
    P d ∨ ∃ d', Step d d' := by
  induction h with
  | here c hc =>
    rcases hr.cases_head with rfl | ⟨b, hb, _⟩
    · exact .inl hc
    · exact absurd hb (hP c hc b)
  | step c hp _ ih =>
    rcases hr.cases_head with rfl | ⟨b, hb, hr'⟩
    · exact .inr hp
    · exact ih b hb hr'

theorem Finished.no_step (hn : 0 < n) {c : Cfg n S A} {r : Fin n → A} (h : Finished c r)
    (c' : Cfg n S A) : ¬ Step c c' := by
  intro hs
  cases hs with
  | act i f k e => rw [h i] at e; cases e
  | read i g e => rw [h i] at e; cases e
  | claim i f k e => rw [h i] at e; cases e
  | skip i f k e => rw [h i] at e; cases e
  | cross K e => have := e ⟨0, hn⟩; rw [h ⟨0, hn⟩] at this; cases this

/-- if it is inevitable that all threads return, no reachable configuration is stuck -/
theorem Inevitable.not_stuck (hn : 0 < n) {Q : Cfg n S A → Prop} {c : Cfg n S A}
    (h : Inevitable (fun d => Q d ∧ ∃ r, Finished d r) c) {d : Cfg n S A} (hr : Reach c d) :
    ¬ Stuck d := by
  rintro ⟨hs, i, hi⟩
  rcases h.final (fun c hc => by obtain ⟨_, r, hr⟩ := hc; exact hr.no_step hn) hr with hp | ⟨d', hd⟩
  · obtain ⟨_, r, hf⟩ := hp; exact hi _ (hf i)
  · exact hs d' hd

theorem Inevitable.along {P : Cfg n S A → Prop} (hP : ∀ c, P c → ∀ c', ¬ Step c c')
    {c : Cfg n S A} (h : Inevitable P c) {d : Cfg n S A} (hr : Reach c d) : Inevitable P d := by
  induction h with
  | here c hc =>
    rcases hr.cases_head with rfl | ⟨b, hb, _⟩
    · exact .here _ hc
    · exact absurd hb (hP c hc b)
  | step c hp h ih =>
    rcases hr.cases_head with rfl | ⟨b, hb, hr'⟩
    · exact .step _ hp h
    · exact ih b hb hr'

theorem Step.ret_stays {c c' : Cfg n S A} (h : Step c c') {i : Fin n} {a : A}
    (hi : c.code i = .ret a) : c'.code i = .ret a := by
  cases h with
  | act j f k e =>
    by_cases ej : i = j
    · subst ej; rw [e] at hi; cases hi
    · simpa [Function.update_of_ne ej] using hi
  | read j g e =>
    by_cases ej : i = j
    · subst ej; rw [e] at hi; cases hi
    · simpa [Function.update_of_ne ej] using hi
  | claim j f k e _ =>
    by_cases ej : i = j
    · subst ej; rw [e] at hi; cases hi
    · simpa [Function.update_of_ne ej] using hi
  | skip j f k e _ =>
    by_cases ej : i = j
    · subst ej; rw [e] at hi; cases hi
    · simpa [Function.update_of_ne ej] using hi
  | cross K e => rw [e i] at hi; cases hi

/-- whatever a thread has returned in a reachable configuration is what it must return -/
theorem Inevitable.returned (hn : 0 < n) {Q : Cfg n S A → Prop} {r : Fin n → A} {c : Cfg n S A}
    (h : Inevitable (fun d => Q d ∧ Finished d r) c) {d : Cfg n S A} (hr : Reach c d) {i : Fin n}
    {a : A} (hi : d.code i = .ret a) : a = r i := by
  have h' := h.along (fun c hc => hc.2.no_step hn) hr
  clear h hr
  induction h' with
  | here c hc => have := hc.2 i; rw [hi] at this; injection this
  | step c hp _ ih =>
    obtain ⟨c', hc'⟩ := hp
    exact ih c' hc' (hc'.ret_stays hi)

/-! ## Phases -/

/-- the thread waits at a barrier or has returned -/
inductive Halted : Prog S A → Prop where
  | barrier (k : Prog S A) : Halted (.barrier k)
  | ret (a : A) : Halted (.ret a)

/-- `Phase I f fs b p q m`: the program `p` reaches the halted program `q` after `m` moves, only
    reading values that are the same in all states of `I`, meeting the `single` regions `fs` and, if
    `b`, doing the atomic update `f` once. -/
inductive Phase (I : S → Prop) (f : S → S) : List (S → S) → Bool → Prog S A → Prog S A → Nat → Prop
  where
  | halt {q : Prog S A} (h : Halted q) : Phase I f [] false q q 0
  | read {fs : List (S → S)} {b : Bool} {g : S → Prog S A} {p q : Prog S A} {m : Nat}
      (hg : ∀ s, I s → g s = p) (h : Phase I f fs b p q m) : Phase I f fs b (.read g) q (m + 1)
  | single {fs : List (S → S)} {b : Bool} {g : S → S} {p q : Prog S A} {m : Nat}
      (h : Phase I f fs b p q m) : Phase I f (g :: fs) b (.single g p) q (m + 1)
  | act {fs : List (S → S)} {p q : Prog S A} {m : Nat}
      (h : Phase I f fs false p q m) : Phase I f fs true (.act f p) q (m + 1)

section inv
variable {I : S → Prop} {f : S → S} {fs : List (S → S)} {b : Bool} {q : Prog S A} {m : Nat}

theorem Phase.barrier_inv {k : Prog S A} (h : Phase I f fs b (.barrier k) q m) :
    fs = [] ∧ b = false ∧ q = .barrier k ∧ m = 0 := by
  cases h; exact ⟨rfl, rfl, rfl, rfl⟩

theorem Phase.zero_inv {p : Prog S A} (h : Phase I f fs b p q 0) :
    fs = [] ∧ b = false ∧ q = p ∧ Halted q := by
  cases h with
  | halt h => exact ⟨rfl, rfl, rfl, h⟩

theorem Phase.read_inv {g : S → Prog S A} (h : Phase I f fs b (.read g) q m) :
    ∃ p m', m = m' + 1 ∧ (∀ s, I s → g s = p) ∧ Phase I f fs b p q m' := by
  cases h with
  | halt h => cases h
  | read hg h => exact ⟨_, _, rfl, hg, h⟩

theorem Phase.single_inv {g : S → S} {p : Prog S A} (h : Phase I f fs b (.single g p) q m) :
    ∃ fs' m', m = m' + 1 ∧ fs = g :: fs' ∧ Phase I f fs' b p q m' := by
  cases h with
  | halt h => cases h
  | single h => exact ⟨_, _, rfl, rfl, h⟩

theorem Phase.act_inv {g : S → S} {p : Prog S A} (h : Phase I f fs b (.act g p) q m) :
    ∃ m', m = m' + 1 ∧ g = f ∧ b = true ∧ Phase I f fs false p q m' := by
  cases h with
  | halt h => cases h
  | act h => exact ⟨_, rfl, rfl, rfl, h⟩

/-- a thread that has not halted can move -/
theorem Phase.can_move (h : Phase I f fs b p q m) (hm : m ≠ 0) :
    (∃ g, p = .read g) ∨ (∃ g k, p = .act g k) ∨ ∃ g k, p = .single g k := by
  cases h with
  | halt _ => exact absurd rfl hm
  | read _ _ => exact .inl ⟨_, rfl⟩
  | single _ => exact .inr (.inr ⟨_, _, rfl⟩)
  | act _ => exact .inr (.inl ⟨_, _, rfl⟩)

end inv

private theorem sum_update_lt {m : Fin n → Nat} {j : Fin n} {v : Nat} (h : v < m j) :
    ∑ i, update m j v i < ∑ i, m i := by
  apply Finset.sum_lt_sum
  · intro i _
    by_cases e : i = j
    · subst e; simp; omega
    · simp [Function.update_of_ne e]
  · exact ⟨j, Finset.mem_univ _, by simpa using h⟩

/-- configurations inside a phase of `single` regions -/
private structure MidS (I : S → Prop) (fs : List (S → S)) (s0 : S) (c0 : Nat) (Q : Fin n → Prog S A)
    (m : Fin n → Nat) (c : Cfg n S A) where
  d : Fin n → Nat
  D : Nat
  hD : D ≤ fs.length
  hd : ∀ i, d i ≤ D
  hcnt : ∀ i, c.cnt i = c0 + d i
  hcl : c.claimed = c0 + D
  hsh : c.shared = (fs.take D).foldl (fun s f => f s) s0
  hI : I c.shared
  hcode : ∀ i, Phase I id (fs.drop (d i)) false (c.code i) (Q i) (m i)

private theorem phase_singles_aux (I : S → Prop) (fs : List (S → S))
    (hI : ∀ f ∈ fs, ∀ s, I s → I (f s)) (s0 : S) (c0 : Nat) (Q : Fin n → Prog S A) (N : Nat) :
    ∀ (m : Fin n → Nat), ∑ i, m i = N → ∀ c, MidS I fs s0 c0 Q m c → 0 < n →
      Inevitable (fun c => c = start (fs.foldl (fun s f => f s) s0) (c0 + fs.length) Q) c := by
  induction N using Nat.strong_induction_on with
  | _ N ih =>
    intro m hm c hc hn
    by_cases hz : ∀ i, m i = 0
    · have hbar : ∀ i, c.code i = Q i ∧ fs.drop (hc.d i) = [] := by
        intro i
        have h := hc.hcode i
        rw [hz i] at h
        exact ⟨h.zero_inv.2.2.1.symm, h.zero_inv.1⟩
      have hdl : ∀ i, hc.d i = fs.length := by
        intro i
        have := (hbar i).2
        rw [List.drop_eq_nil_iff] at this
        have := hc.hd i; have := hc.hD; omega
      have hDl : hc.D = fs.length := by
        have := hc.hd ⟨0, hn⟩; have := hdl ⟨0, hn⟩; have := hc.hD; omega
      apply Inevitable.here
      have hQ : c.code = Q := by funext i; exact (hbar i).1
      have h1 := hc.hsh
      rw [hDl, List.take_length] at h1
      have h2 := hc.hcl
      rw [hDl] at h2
      have h3 : c.cnt = fun _ => c0 + fs.length := by
        funext i; rw [hc.hcnt i, hdl i]
      unfold start
      rw [← h1, ← h2]
      rw [← h2] at h3
      rw [← h3, ← hQ]
    · rw [not_forall] at hz
      obtain ⟨i0, hi0⟩ := hz
      refine .step c ?_ ?_
      · rcases (hc.hcode i0).can_move hi0 with ⟨g, hq⟩ | ⟨g, k, hq⟩ | ⟨g, k, hq⟩
        · exact ⟨_, .read c i0 _ hq⟩
        · exact ⟨_, .act c i0 _ _ hq⟩
        · by_cases e : c.cnt i0 = c.claimed
          · exact ⟨_, .claim c i0 _ _ hq e⟩
          · refine ⟨_, .skip c i0 _ _ hq ?_⟩
            have := hc.hcnt i0; have := hc.hcl; have := hc.hd i0; omega
      · intro c' hs
        cases hs with
        | act j f k e =>
          have h := hc.hcode j
          rw [e] at h
          obtain ⟨_, _, _, hb, _⟩ := h.act_inv
          exact absurd hb (by simp)
        | cross K' e =>
          have h := hc.hcode i0
          rw [e i0] at h
          exact absurd h.barrier_inv.2.2.2 hi0
        | read j g e =>
          have h := hc.hcode j
          rw [e] at h
          obtain ⟨p, m', hmm, hg, h⟩ := h.read_inv
          refine ih _ ?_ (update m j m') rfl _ ?_ hn
          · rw [← hm]; exact sum_update_lt (by omega)
          · refine ⟨hc.d, hc.D, hc.hD, hc.hd, hc.hcnt, hc.hcl, hc.hsh, hc.hI, ?_⟩
            intro i
            by_cases ei : i = j
            · subst ei; simp only [Function.update_self]; rw [hg _ hc.hI]; exact h
            · simp only [Function.update_of_ne ei]; exact hc.hcode i
        | skip j f k e hlt =>
          have h := hc.hcode j
          rw [e] at h
          obtain ⟨fs', m', hmm, hl, h⟩ := h.single_inv
          have hdj : hc.d j < hc.D := by
            have := hc.hcnt j; have := hc.hcl; omega
          have hdrop : fs.drop (hc.d j + 1) = fs' := by
            rw [← List.drop_drop, hl]; rfl
          refine ih _ ?_ (update m j m') rfl _ ?_ hn
          · rw [← hm]; exact sum_update_lt (by omega)
          · refine ⟨update hc.d j (hc.d j + 1), hc.D, hc.hD, ?_, ?_, hc.hcl, hc.hsh, hc.hI, ?_⟩
            · intro i
              by_cases ei : i = j
              · subst ei; simp; omega
              · simp [Function.update_of_ne ei]; exact hc.hd i
            · intro i
              by_cases ei : i = j
              · subst ei; simp [hc.hcnt i]; omega
              · simp [Function.update_of_ne ei]; exact hc.hcnt i
            · intro i
              by_cases ei : i = j
              · subst ei; simp only [Function.update_self]; rw [hdrop]; exact h
              · simp only [Function.update_of_ne ei]; exact hc.hcode i
        | claim j f k e heq =>
          have h := hc.hcode j
          rw [e] at h
          obtain ⟨fs', m', hmm, hl, h⟩ := h.single_inv
          have hdj : hc.d j = hc.D := by
            have := hc.hcnt j; have := hc.hcl; omega
          have hdrop : fs.drop (hc.d j + 1) = fs' := by
            rw [← List.drop_drop, hl]; rfl
          have hlen : hc.D < fs.length := by
            by_contra hcon
            rw [List.drop_eq_nil_of_le (by omega)] at hl; cases hl
          have hget : fs[hc.D]? = some f := by
            have : (fs.drop (hc.d j))[0]? = some f := by rw [hl]; rfl
            rw [List.getElem?_drop] at this
            rw [← hdj]; simpa using this
          have htake : fs.take (hc.D + 1) = fs.take hc.D ++ [f] := by
            rw [List.take_add_one, hget]; rfl
          have hmem : f ∈ fs := List.mem_of_getElem? hget
          refine ih _ ?_ (update m j m') rfl _ ?_ hn
          · rw [← hm]; exact sum_update_lt (by omega)
          · refine ⟨update hc.d j (hc.d j + 1), hc.D + 1, hlen, ?_, ?_, ?_, ?_, hI f hmem _ hc.hI, ?_⟩
            · intro i
              by_cases ei : i = j
              · subst ei; simp; omega
              · simp [Function.update_of_ne ei]; have := hc.hd i; omega
            · intro i
              by_cases ei : i = j
              · subst ei; simp [hc.hcnt i]; omega
              · simp [Function.update_of_ne ei]; exact hc.hcnt i
            · simp [hc.hcl]; omega
            · simp only [htake, List.foldl_append, List.foldl_cons, List.foldl_nil, ← hc.hsh]
            · intro i
              by_cases ei : i = j
              · subst ei; simp only [Function.update_self]; rw [hdrop]; exact h
              · simp only [Function.update_of_ne ei]; exact hc.hcode i

/-- A phase in which all threads meet the same `single` regions `fs` and only read shared values
    that these regions do not change: whatever the schedule, all threads halt where the program
    says, each region has been executed exactly once, in program order. -/
theorem phase_singles (hn : 0 < n) (I : S → Prop) (fs : List (S → S))
    (hI : ∀ f ∈ fs, ∀ s, I s → I (f s)) (s : S) (hs : I s) (c : Nat) (P Q : Fin n → Prog S A)
    (h : ∀ i, ∃ m, Phase I id fs false (P i) (Q i) m) :
    Inevitable (fun d => d = start (fs.foldl (fun s f => f s) s) (c + fs.length) Q)
      (start s c P) := by
  choose m hm using h
  refine phase_singles_aux I fs hI s c Q _ m rfl _ ?_ hn
  exact ⟨fun _ => 0, 0, Nat.zero_le _, fun _ => le_refl _, fun _ => rfl, rfl, rfl, hs, hm⟩

private structure MidA (I : S → Prop) (f : Fin n → S → S) (s0 : S) (c0 : Nat) (Q : Fin n → Prog S A)
    (m : Fin n → Nat) (c : Cfg n S A) where
  l : List (Fin n)
  hl : l.Nodup
  b : Fin n → Bool
  hb : ∀ i, b i = false ↔ i ∈ l
  hcnt : ∀ i, c.cnt i = c0
  hcl : c.claimed = c0
  hsh : c.shared = l.foldl (fun s i => f i s) s0
  hI : I c.shared
  hcode : ∀ i, Phase I (f i) [] (b i) (c.code i) (Q i) (m i)

private theorem phase_acts_aux (I : S → Prop) (f : Fin n → S → S)
    (hI : ∀ i, ∀ s, I s → I (f i s)) (s0 : S) (c0 : Nat) (Q : Fin n → Prog S A) (N : Nat) :
    ∀ (m : Fin n → Nat), ∑ i, m i = N → ∀ c, MidA I f s0 c0 Q m c → 0 < n →
      Inevitable (fun c => ∃ l : List (Fin n), l.Perm (List.finRange n) ∧
        c = start (l.foldl (fun s i => f i s) s0) c0 Q) c := by
  induction N using Nat.strong_induction_on with
  | _ N ih =>
    intro m hm c hc hn
    by_cases hz : ∀ i, m i = 0
    · have hbar : ∀ i, c.code i = Q i ∧ hc.b i = false := by
        intro i
        have h := hc.hcode i
        rw [hz i] at h
        exact ⟨h.zero_inv.2.2.1.symm, h.zero_inv.2.1⟩
      apply Inevitable.here
      refine ⟨hc.l, ?_, ?_⟩
      · rw [List.perm_ext_iff_of_nodup hc.hl (List.nodup_finRange n)]
        intro i
        simp [← hc.hb i, (hbar i).2]
      · have hQ : c.code = Q := by funext i; exact (hbar i).1
        have h3 : c.cnt = fun _ => c0 := by funext i; exact hc.hcnt i
        unfold start
        rw [← hc.hsh, ← h3, ← hQ]
        obtain ⟨sh, cl, co, cn⟩ := c
        have := hc.hcl
        simp only at this
        rw [this]
    · rw [not_forall] at hz
      obtain ⟨i0, hi0⟩ := hz
      refine .step c ?_ ?_
      · have h := hc.hcode i0
        rcases h.can_move hi0 with ⟨g, hq⟩ | ⟨g, k, hq⟩ | ⟨g, k, hq⟩
        · exact ⟨_, .read c i0 _ hq⟩
        · exact ⟨_, .act c i0 _ _ hq⟩
        · rw [hq] at h
          obtain ⟨_, _, _, hl, _⟩ := h.single_inv
          cases hl
      · intro c' hs
        cases hs with
        | claim j f k e he =>
          have h := hc.hcode j; rw [e] at h
          obtain ⟨_, _, _, hl, _⟩ := h.single_inv
          cases hl
        | skip j f k e he =>
          have h := hc.hcode j; rw [e] at h
          obtain ⟨_, _, _, hl, _⟩ := h.single_inv
          cases hl
        | cross K' e =>
          have h := hc.hcode i0
          rw [e i0] at h
          exact absurd h.barrier_inv.2.2.2 hi0
        | read j g e =>
          have h := hc.hcode j
          rw [e] at h
          obtain ⟨p, m', hmm, hg, h⟩ := h.read_inv
          refine ih _ ?_ (update m j m') rfl _ ?_ hn
          · rw [← hm]; exact sum_update_lt (by omega)
          · refine ⟨hc.l, hc.hl, hc.b, hc.hb, hc.hcnt, hc.hcl, hc.hsh, hc.hI, ?_⟩
            intro i
            by_cases ei : i = j
            · subst ei; simp only [Function.update_self]; rw [hg _ hc.hI]; exact h
            · simp only [Function.update_of_ne ei]; exact hc.hcode i
        | act j f' k e =>
          have h := hc.hcode j
          rw [e] at h
          obtain ⟨m', hmm, hf, hbb, h'⟩ := h.act_inv
          subst hf
          have hj : j ∉ hc.l := by rw [← hc.hb j, hbb]; simp
          refine ih _ ?_ (update m j m') rfl _ ?_ hn
          · rw [← hm]; exact sum_update_lt (by omega)
          · refine ⟨hc.l ++ [j], ?_, update hc.b j false, ?_, hc.hcnt, hc.hcl, ?_,
              hI j _ hc.hI, ?_⟩
            · rw [List.nodup_append]
              refine ⟨hc.hl, by simp, ?_⟩
              intro a ha b hb
              simp at hb; subst hb
              intro e; subst e; exact hj ha
            · intro i
              by_cases ei : i = j
              · subst ei; simp
              · simp [ei, hc.hb i]
            · simp only [List.foldl_append, List.foldl_cons, List.foldl_nil, ← hc.hsh]
            · intro i
              by_cases ei : i = j
              · subst ei; simp only [Function.update_self]; exact h'
              · simp only [Function.update_of_ne ei]; exact hc.hcode i

/-- A phase in which every thread does one atomic update: whatever the schedule, all threads halt
    where the program says and every update has been applied exactly once, in some order. -/
theorem phase_acts (hn : 0 < n) (I : S → Prop) (f : Fin n → S → S)
    (hI : ∀ i, ∀ s, I s → I (f i s)) (s : S) (hs : I s) (c : Nat) (P Q : Fin n → Prog S A)
    (h : ∀ i, ∃ m, Phase I (f i) [] true (P i) (Q i) m) :
    Inevitable (fun d => ∃ l : List (Fin n), l.Perm (List.finRange n) ∧
      d = start (l.foldl (fun s i => f i s) s) c Q) (start s c P) := by
  choose m hm using h
  refine phase_acts_aux I f hI s c Q _ m rfl _ ?_ hn
  exact ⟨[], List.nodup_nil, fun _ => true, fun i => by simp, fun _ => rfl, rfl, rfl, hs, hm⟩

/-- a team that waits at a barrier crosses it -/
theorem cross_barrier (s : S) (c : Nat) (K : Fin n → Prog S A) :
    Inevitable (fun d => d = start s c K) (start s c (fun i => .barrier (K i))) := by
  refine .step _ ⟨_, .cross _ K (fun _ => rfl)⟩ ?_
  intro c' hs
  cases hs with
  | act i f k e => cases e
  | read i g e => cases e
  | claim i f k e => cases e
  | skip i f k e => cases e
  | cross K' e =>
    have : K' = K := by funext i; have := e i; injection this with this; exact this.symm
    subst this
    exact .here _ rfl

/-! ## Team rules

`Pend Post s J fs P`: the team is inside a phase that started in state `s`; so far every thread has
only read values on which all states of `J` agree and has met the `single` regions `fs`; it continues
with `P`.  Whatever the schedule, `Post` will be reached. -/

/-- the part of a phase between program `p` and the later program `q` of the same thread -/
inductive Prefix (I : S → Prop) : List (S → S) → Prog S A → Prog S A → Prop where
  | refl (p : Prog S A) : Prefix I [] p p
  | read {fs : List (S → S)} {g : S → Prog S A} {p q : Prog S A}
      (hg : ∀ s, I s → g s = p) (h : Prefix I fs p q) : Prefix I fs (.read g) q
  | single {fs : List (S → S)} {g : S → S} {p q : Prog S A}
      (h : Prefix I fs p q) : Prefix I (g :: fs) (.single g p) q

theorem Prefix.weaken {I J : S → Prop} (hIJ : ∀ s, J s → I s) {fs : List (S → S)} {p q : Prog S A}
    (h : Prefix I fs p q) : Prefix J fs p q := by
  induction h with
  | refl p => exact .refl p
  | read hg _ ih => exact .read (fun s hs => hg s (hIJ s hs)) ih
  | single _ ih => exact .single ih

theorem Prefix.snoc_read {I : S → Prop} {fs : List (S → S)} {p : Prog S A} {g : S → Prog S A}
    {q : Prog S A} (hg : ∀ s, I s → g s = q) (h : Prefix I fs p (.read g)) : Prefix I fs p q := by
  generalize hr : Prog.read g = r at h
  induction h with
  | refl p => subst hr; exact .read hg (.refl q)
  | read hg' _ ih => exact .read hg' (ih hr)
  | single _ ih => exact .single (ih hr)

theorem Prefix.snoc_single {I : S → Prop} {fs : List (S → S)} {p : Prog S A} {g : S → S}
    {q : Prog S A} (h : Prefix I fs p (.single g q)) : Prefix I (fs ++ [g]) p q := by
  generalize hr : Prog.single g q = r at h
  induction h with
  | refl p => subst hr; exact .single (.refl q)
  | read hg' _ ih => exact .read hg' (ih hr)
  | single _ ih => exact .single (ih hr)

theorem Prefix.phase {I : S → Prop} {f : S → S} {fs gs : List (S → S)} {b : Bool} {p q r : Prog S A}
    {m : Nat} (h : Prefix I fs p q) (h' : Phase I f gs b q r m) :
    ∃ m', Phase I f (fs ++ gs) b p r m' := by
  induction h with
  | refl p => exact ⟨m, h'⟩
  | read hg _ ih => obtain ⟨m', h⟩ := ih h'; exact ⟨_, .read hg h⟩
  | single _ ih => obtain ⟨m', h⟩ := ih h'; exact ⟨_, .single h⟩

/-- whatever the schedule, the team reaches `Post` from the state `s` and programs `P` -/
def Safe (Post : Cfg n S A → Prop) (s : S) (P : Fin n → Prog S A) : Prop :=
  ∀ c, Inevitable Post (start s c P)

structure Stable (s : S) (J : S → Prop) (fs : List (S → S)) : Prop where
  here : J s
  keep : ∀ f ∈ fs, ∀ s, J s → J (f s)

/-- see above -/
def Pend (Post : Cfg n S A → Prop) (s : S) (J : S → Prop) (fs : List (S → S))
    (P : Fin n → Prog S A) : Prop :=
  Stable s J fs → ∀ P0 : Fin n → Prog S A, (∀ i, Prefix J fs (P0 i) (P i)) → Safe Post s P0

variable {Post : Cfg n S A → Prop} {s : S} {J : S → Prop} {fs : List (S → S)}

/-- enter a phase -/
theorem Safe.enter {P : Fin n → Prog S A} (h : Pend Post s (fun _ => True) [] P) : Safe Post s P :=
  h ⟨trivial, fun _ _ _ _ => trivial⟩ P (fun i => .refl _)

/-- read a shared value that no `single` region met in this phase changes -/
theorem Pend.read {α : Type} {π : S → α} {k : Fin n → α → Prog S A} (a : α) (ha : π s = a)
    (hk : ∀ f ∈ fs, ∀ s, J s → π (f s) = π s)
    (h : Pend Post s (fun t => J t ∧ π t = a) fs (fun i => k i a)) :
    Pend Post s J fs (fun i => .read fun t => k i (π t)) := by
  intro st P0 hP
  refine h ⟨⟨st.here, ha⟩, ?_⟩ P0 ?_
  · rintro f hf t ⟨h1, h2⟩
    exact ⟨st.keep f hf t h1, by rw [hk f hf t h1, h2]⟩
  · intro i
    refine Prefix.snoc_read (g := fun t => k i (π t)) ?_ ((hP i).weaken fun t ht => ht.1)
    rintro t ⟨_, h2⟩
    show k i (π t) = k i a
    rw [h2]

/-- meet an `omp single nowait` -/
theorem Pend.single {f : S → S} {K : Fin n → Prog S A} (hf : ∀ s, J s → J (f s))
    (h : Pend Post s J (fs ++ [f]) K) : Pend Post s J fs (fun i => .single f (K i)) := by
  intro st P0 hP
  refine h ⟨st.here, ?_⟩ P0 (fun i => (hP i).snoc_single)
  intro g hg
  rw [List.mem_append, List.mem_singleton] at hg
  rcases hg with hg | rfl
  · exact st.keep g hg
  · exact hf

/-- barrier -/
theorem Pend.barrier (hn : 0 < n) {K : Fin n → Prog S A}
    (h : Safe Post (fs.foldl (fun s f => f s) s) K) : Pend Post s J fs (fun i => .barrier (K i)) := by
  intro st P0 hP c
  have := phase_singles hn J fs st.keep s st.here c P0 (fun i => .barrier (K i)) (fun i => by
    have := (hP i).phase (f := id) (Phase.halt (.barrier (K i)))
    simpa using this)
  refine this.bind ?_
  rintro d rfl
  refine (cross_barrier _ _ K).bind ?_
  rintro d rfl
  exact h _

/-- return -/
theorem Pend.ret (hn : 0 < n) {r : Fin n → A}
    (h : ∀ c, Post (start (fs.foldl (fun s f => f s) s) c (fun i => .ret (r i)))) :
    Pend Post s J fs (fun i => .ret (r i)) := by
  intro st P0 hP c
  have := phase_singles hn J fs st.keep s st.here c P0 (fun i => .ret (r i)) (fun i => by
    have := (hP i).phase (f := id) (Phase.halt (.ret (r i)))
    simpa using this)
  refine this.mono ?_
  rintro d rfl
  exact h _

/-- `omp single` with its implicit barrier -/
theorem Pend.singleB (hn : 0 < n) {f : S → S} {K : Fin n → Prog S A} (hf : ∀ s, J s → J (f s))
    (h : Safe Post (f (fs.foldl (fun s f => f s) s)) K) :
    Pend Post s J fs (fun i => .single f (.barrier (K i))) := by
  refine Pend.single (K := fun i => .barrier (K i)) hf (Pend.barrier hn ?_)
  simpa using h

/-- one atomic update per thread, then a barrier -/
theorem Pend.act (hn : 0 < n) {f : Fin n → S → S} {K : Fin n → Prog S A}
    (hf : ∀ i s, J s → J (f i s))
    (h : ∀ l : List (Fin n), l.Perm (List.finRange n) →
      Safe Post (l.foldl (fun s i => f i s) s) K) :
    Pend Post s J [] (fun i => .act (f i) (.barrier (K i))) := by
  intro st P0 hP c
  have := phase_acts hn J f hf s st.here c P0 (fun i => .barrier (K i)) (fun i => by
    have := (hP i).phase (f := f i) (Phase.act (Phase.halt (.barrier (K i))))
    simpa using this)
  refine this.bind ?_
  rintro d ⟨l, hl, rfl⟩
  refine (cross_barrier _ _ K).bind ?_
  rintro d rfl
  exact h l hl _

end Verif.Team
