import Verif.TridiagOmp.Lemmas
import Mathlib.Tactic.NormNum
import Mathlib.Tactic.IntervalCases
import Mathlib.Data.Rat.Defs
import Mathlib.Algebra.Field.Rat

/-!
# C114: the parallel tridiagonal solver
-/
namespace Verif.TridiagOmp
open Verif
open Verif.Tridiag (minor rowHolds)

variable {Δ : Type} {K : Type} [Field K]

/-! ## Specification -/

/-- the section thread `t` is about to execute: 0 head (rank 0 only), 1 forward, 2 backward -/
def inSection (s : Sys Δ) (t : ℕ) : Option ℕ :=
  if s.pc t = 0 then (if t = 0 then some 0 else none)
  else if s.pc t = 4 then some 1
  else if s.pc t = 10 then some 2
  else none

/-- every thread has returned -/
def done (n : ℕ) (s : Sys Δ) : Prop := ∀ t < n, s.pc t = 14

/-- executions with their number of steps -/
inductive Path (P : Sections Δ) (n : ℕ) (d : Δ) : ℕ → Sys Δ → Prop where
  | init : Path P n d 0 (start d)
  | next (k : ℕ) (s s' : Sys Δ) (t : ℕ) : Path P n d k s → t < n → step P n t s = .go s' → Path P n d (k + 1) s'

/-- the threads share the rows `0 ≤ j < lim n`, at least one each -/
structure Partition (n : ℕ) (lim : ℕ → Int) : Prop where
  pos : 0 < n
  zero : lim 0 = 0
  inc : ∀ t < n, lim t < lim (t + 1)

/-- the first thread has a row after the first active one (if there are other threads), and the
    thread that begins with the last active row ends with it -/
structure Wide (n : ℕ) (lim : ℕ → Int) (jMin jMax : Int) : Prop where
  first : jMin < lim 1 ∧ (1 < n → jMin + 2 ≤ lim 1)
  last : ∀ t, 0 < t → t < n → lim t = jMax - 1 → lim (t + 1) = jMax

/-! ## The protocol -/

theorem path_reach {P : Sections Δ} {n : ℕ} {d : Δ} {k : ℕ} {s : Sys Δ} (h : Path P n d k s) : Reach P n d s := by
  induction h with
  | init => exact .init
  | next k s s' t _ ht hs ih => exact .next s s' t ih ht hs

/-- **C114** (exclusion): no two threads are in a section that works on the shared memory, in any
    interleaving -/
theorem C114_exclusive (P : Sections Δ) (n : ℕ) (d : Δ) (s : Sys Δ) (h : Reach P n d s) (t u : ℕ) (ht : t < n) (hu : u < n)
    (htu : t ≠ u) : inSection s t = none ∨ inSection s u = none := by
  have I := inv_reach h
  have F : ∀ k a, a + k + 1 < n → 4 ≤ s.pc (a + k + 1) → 7 ≤ s.pc a := by
    intro k
    induction k with
    | zero => intro a ha h4; exact I.ordF a ha h4
    | succ k ih =>
      intro a ha h4
      have := I.ordF (a + k + 1) (by omega) (by rwa [show a + k + 1 + 1 = a + (k + 1) + 1 by omega])
      exact ih a (by omega) (by omega)
  have B : ∀ k a, a + k + 1 < n → 10 ≤ s.pc a → 13 ≤ s.pc (a + k + 1) := by
    intro k
    induction k with
    | zero => intro a ha h4; exact I.ordB a ha h4
    | succ k ih =>
      intro a ha h4
      have := ih a (by omega) h4
      have := I.ordB (a + k + 1) (by omega) (by omega)
      rwa [show a + (k + 1) + 1 = a + k + 1 + 1 by omega]
  by_contra hc
  push Not at hc
  obtain ⟨c1, c2⟩ := hc
  have key : ∀ a b, a < b → b < n → inSection s a ≠ none → inSection s b ≠ none → False := by
    intro a b hab hb ca cb
    have f := F (b - a - 1) a (by omega)
    have g := B (b - a - 1) a (by omega)
    rw [show a + (b - a - 1) + 1 = b by omega] at f g
    have a1 := I.barA a (by omega) b hb
    have a2 := I.barA b hb a (by omega)
    have b1 := I.barB a (by omega) b hb
    have b2 := I.barB b hb a (by omega)
    unfold inSection at ca cb
    have va : s.pc a = 0 ∨ s.pc a = 4 ∨ s.pc a = 10 := by
      by_contra hv
      rw [if_neg (by omega), if_neg (by omega), if_neg (by omega)] at ca
      exact ca rfl
    have vb : s.pc b = 4 ∨ s.pc b = 10 := by
      by_contra hv
      by_cases z : s.pc b = 0
      · rw [if_pos z, if_neg (by omega)] at cb; exact cb rfl
      · rw [if_neg z, if_neg (by omega), if_neg (by omega)] at cb; exact cb rfl
    omega
  rcases Nat.lt_or_gt_of_ne htu with x | x
  · exact key t u x hu c1 c2
  · exact key u t x ht c2 c1

/-- **C114** (no undefined behaviour, no deadlock): no mutex is locked twice or unlocked by a
    thread that does not own it, and unless all threads have returned, one can go on -/
theorem C114_no_deadlock (P : Sections Δ) (n : ℕ) (d : Δ) (s : Sys Δ) (h : Reach P n d s) :
    (∀ t < n, step P n t s ≠ .ub) ∧ (done n s ∨ ∃ t < n, ∃ s', step P n t s = .go s') := by
  have I := inv_reach h
  refine ⟨fun t ht => no_ub I ht, ?_⟩
  by_cases hd : done n s
  · exact Or.inl hd
  · right
    apply progress I
    unfold done at hd
    push Not at hd
    exact hd

/-- **C114** (termination): every execution of `n` threads that has not returned after `k` steps
    has `k < 14 n`; it returns after exactly `14 n` steps, and then all mutexes are free -/
theorem C114_ends (P : Sections Δ) (n k : ℕ) (d : Δ) (s : Sys Δ) (h : Path P n d k s) :
    k ≤ 14 * n ∧ (done n s ↔ k = 14 * n) ∧ (done n s → ∀ j, s.own j = none) := by
  have I := inv_reach (path_reach h)
  have e : k = ∑ u ∈ Finset.range n, s.pc u := by
    clear I
    induction h with
    | init => simp [start]
    | next k s s' t _ ht hs ih => rw [step_pc hs, sum_set _ ht, ← ih]
  have top : ∀ u ∈ Finset.range n, s.pc u ≤ 14 := fun u hu => I.top u (Finset.mem_range.1 hu)
  have hle : ∑ u ∈ Finset.range n, s.pc u ≤ ∑ u ∈ Finset.range n, 14 := Finset.sum_le_sum top
  have h14 : ∑ u ∈ Finset.range n, 14 = 14 * n := by simp [mul_comm]
  refine ⟨by omega, ⟨fun hd => ?_, fun hk => ?_⟩, fun hd j => ?_⟩
  · rw [e, ← h14]
    exact Finset.sum_congr rfl (fun u hu => hd u (Finset.mem_range.1 hu))
  · have := (Finset.sum_eq_sum_iff_of_le top).1 (by omega)
    exact fun t ht => this t (Finset.mem_range.2 ht)
  · rw [free_iff I]
    intro u hu
    have := hd u hu.1
    simp only [holds] at hu; omega

/-- **C114** (order): whatever the interleaving, the memory at the return is that after the head,
    the forward sections of the threads `0, 1, …` and the backward sections of `n - 1, n - 2, …` -/
theorem C114_order (P : Sections Δ) (n : ℕ) (hn : 0 < n) (d : Δ) (s : Sys Δ) (h : Reach P n d s) (hd : done n s) :
    s.mem = ((List.range n).reverse).foldl (fun m t => P.bwd t m)
      ((List.range n).foldl (fun m t => P.fwd t m) (P.head d)) := by
  have I := inv_reach h
  obtain ⟨p, q, hp, hq, h1, h2, h3⟩ := I.mem
  have pn : p = n := by
    by_contra hne
    have := (h1 p (by omega)).1 (by have := hd p (by omega); omega); omega
  have qn : q = n := by
    have := (h2 0 hn).1 (by have := hd 0 hn; omega); omega
  rw [h3, if_neg (by have := hd 0 hn; omega), pn, qn]
  unfold seq
  have : (List.range n).reverse = (List.range n).map (fun i => n - 1 - i) := by
    apply List.ext_getElem
    · simp
    · intro i h1 h2; simp
  rw [this, List.foldl_map]

theorem final_seq (P : Sections Δ) (n : ℕ) (hn : 0 < n) (d : Δ) (s : Sys Δ) (h : Reach P n d s) (hd : done n s) :
    s.mem = seq P n d n n := by
  rw [C114_order P n hn d s h hd]
  unfold seq
  have : (List.range n).reverse = (List.range n).map (fun i => n - 1 - i) := by
    apply List.ext_getElem
    · simp
    · intro i h1 h2; simp
  rw [this, List.foldl_map]

/-! ## The result -/

/-- **C114** (result): for every number of threads, every partition of the rows that is wide enough,
    every number of modes and right-hand sides, every interleaving and every content of the handover
    storage: if the minors do not vanish, the solver returns the only solution of every system, with
    zeros below the first active row and everything else untouched -/
theorem C114_result_partial (n : ℕ) (lim : ℕ → Int) (jMin : Int → Int) (jMax mnmax nRHS : Int) (o : Int → Arr K)
    (hp : Partition n lim) (hN : jMax ≤ lim n) (mn : Int) (hm : 0 ≤ mn ∧ mn < mnmax) (h0 : 0 ≤ jMin mn) (h1 : jMin mn < jMax)
    (hw : Wide n lim (jMin mn) jMax)
    (hminor : ∀ i : ℕ, (i : Int) ≤ jMax - jMin mn → minor (o mn).a (o mn).d (o mn).b (jMin mn) i ≠ 0)
    (s : Sys (Int → Arr K)) (hs : Reach (sections jMin jMax mnmax nRHS lim) n o s) (hd : done n s) :
    (∀ k, 0 ≤ k → k < nRHS →
      (∀ j, jMin mn ≤ j → j < jMax → rowHolds (o mn).a (o mn).d (o mn).b (jMin mn) jMax ((s.mem mn).c k) ((o mn).c k) j) ∧
      (∀ y : Int → K, (∀ j, jMin mn ≤ j → j < jMax → rowHolds (o mn).a (o mn).d (o mn).b (jMin mn) jMax y ((o mn).c k) j) →
        ∀ j, jMin mn ≤ j → j < jMax → y j = (s.mem mn).c k j) ∧
      (∀ j, 0 ≤ j → j < jMin mn → (s.mem mn).c k j = 0)) ∧
    (∀ k j, ¬ ((0 ≤ k ∧ k < nRHS) ∧ 0 ≤ j ∧ j < jMax) → (s.mem mn).c k j = (o mn).c k j) := by
  rw [final_seq _ n hp.pos o s hs hd, seq_mode hm]
  obtain ⟨f, hF, hB⟩ := all_threads (jMin := jMin mn) (jMax := jMax) (nRHS := nRHS) (o mn) hp.pos hp.zero hp.inc h0 h1 hN
    hw.first.1 hw.first.2 hw.last
  generalize ((List.range n).foldl (fun s i => bwd1 (jMin mn) jMax nRHS (lim (n - 1 - i)) (lim (n - 1 - i + 1)) s)
        ((List.range n).foldl (fun s i => fwd1 (jMin mn) jMax nRHS (lim i) (lim (i + 1)) s)
          (head1 (jMin mn) nRHS (lim 1) (o mn)))) = r at hB ⊢
  obtain ⟨m, hmm⟩ : ∃ m : ℕ, jMin mn + m = jMax := ⟨(jMax - jMin mn).toNat, by omega⟩
  have hpiv : ∀ i, i < m → Tridiag.piv (o mn).a (o mn).d (o mn).b (jMin mn) i ≠ 0 := fun i hi =>
    (Tridiag.minor_piv (o mn).a (o mn).d (o mn).b (jMin mn) m (fun i hi => hminor i (by omega)) i hi).2
  refine ⟨fun k hk0 hk1 => ?_, fun k j hkj => ?_⟩
  · have rows := Tridiag.rows_of_rec (o mn).a (o mn).d (o mn).b ((o mn).c k) (r.c k) (jMin mn) jMax m hmm hpiv
      (fun i hi => by rw [hB.c k _ (by omega), hF.c k hk0 hk1 i (by omega)])
      (fun i hi => by rw [hB.x k hk0 hk1 _ (by omega) (by omega) hi, hF.c k hk0 hk1 i (by omega), hF.a i (by omega) hi])
    refine ⟨rows, ?_, ?_⟩
    · intro y hy j hj0 hj1
      exact Tridiag.unique_of_rows (o mn).a (o mn).d (o mn).b ((o mn).c k) y (r.c k) (jMin mn) jMax m hmm hpiv hy rows j hj0 hj1
    · intro j hj0 hj1
      rw [hB.c k j (by omega)]; exact hF.z k hk0 hk1 j hj0 hj1
  · rw [hB.c k j (by omega)]; exact hF.c' k j (by omega)

/-- **C114** (serial): under the same conditions the result of every mode is that of
    `TridiagonalSolveSerial` for the same system -/
theorem C114_serial_partial (n : ℕ) (lim : ℕ → Int) (jMin : Int → Int) (jMax mnmax nRHS : Int) (o : Int → Arr K)
    (hp : Partition n lim) (hN : jMax ≤ lim n) (mn : Int) (hm : 0 ≤ mn ∧ mn < mnmax) (h0 : 0 ≤ jMin mn) (h1 : jMin mn < jMax)
    (hw : Wide n lim (jMin mn) jMax) (hr : 0 ≤ nRHS)
    (hminor : ∀ i : ℕ, (i : Int) ≤ jMax - jMin mn → minor (o mn).a (o mn).d (o mn).b (jMin mn) i ≠ 0)
    (s : Sys (Int → Arr K)) (hs : Reach (sections jMin jMax mnmax nRHS lim) n o s) (hd : done n s)
    (st : Tridiag.St K) (stride : Int) (hst : jMax ≤ stride) (ea : st.a = (o mn).a) (ed : st.d = (o mn).d) (eb : st.b = (o mn).b)
    (ec : ∀ k j, 0 ≤ j → j < stride → st.c (k * stride + j) = (o mn).c k j) :
    ∀ k j, 0 ≤ k → k < nRHS → 0 ≤ j → j < jMax →
      (Tridiag.solve stride (jMin mn) jMax nRHS st).c (k * stride + j) = (s.mem mn).c k j := by
  intro k j hk0 hk1 hj0 hj1
  obtain ⟨R, _⟩ := C114_result_partial n lim jMin jMax mnmax nRHS o hp hN mn hm h0 h1 hw hminor s hs hd
  obtain ⟨_, R2, R3⟩ := R k hk0 hk1
  have T := (Tridiag.C13_thomas stride (jMin mn) jMax nRHS h0 h1 hst hr st (by rw [ea, ed, eb]; exact hminor)).1 k hk0 hk1
  by_cases hj : j < jMin mn
  · rw [R3 j hj0 hj]; exact T.2.2 j hj0 hj
  · refine R2 (fun j => (Tridiag.solve stride (jMin mn) jMax nRHS st).c (k * stride + j)) (fun i hi0 hi1 => ?_) j (by omega) hj1
    have := T.1 i hi0 hi1
    unfold rowHolds at *
    dsimp only at *
    rw [ea, ed, eb, ec k i (by omega) (by omega)] at this
    exact this

/-! ## Where the claim fails -/

theorem done_exists (P : Sections Δ) (n : ℕ) (d : Δ) : ∃ s, Reach P n d s ∧ done n s := by
  have key : ∀ m k s, Path P n d k s → 14 * n - k = m → ∃ s, Reach P n d s ∧ done n s := by
    intro m
    induction m with
    | zero =>
      intro k s h e
      obtain ⟨h1, h2, _⟩ := C114_ends P n k d s h
      exact ⟨s, path_reach h, h2.2 (by omega)⟩
    | succ m ih =>
      intro k s h e
      rcases (C114_no_deadlock P n d s (path_reach h)).2 with hd | ⟨t, ht, s', hs⟩
      · exact ⟨s, path_reach h, hd⟩
      · exact ih (k + 1) s' (.next k s s' t h ht hs) (by omega)
  exact key _ 0 _ .init rfl

/-- four rows on two threads -/
def lim4 : ℕ → Int := fun t => 2 * t

theorem lim4_partition : Partition 2 lim4 :=
  ⟨by omega, rfl, fun t _ => by unfold lim4; push_cast; omega⟩

/-- unit diagonal and sub-diagonal; the handover storage is new, i.e. zero -/
def oF : Int → Arr ℚ := fun _ =>
  { a := fun _ => 0, d := fun _ => 1, b := fun _ => 1, c := fun _ _ => 1, ha := 0, hc := fun _ => 0 }

/-- unit diagonal and super-diagonal -/
def oL : Int → Arr ℚ := fun _ =>
  { a := fun _ => 1, d := fun _ => 1, b := fun _ => 0, c := fun _ j => if j = 2 then 2 else 1, ha := 0, hc := fun _ => 0 }

theorem oF_minor (mn : Int) (i : ℕ) : minor (oF mn).a (oF mn).d (oF mn).b 1 i = 1 := by
  induction i using Nat.strong_induction_on with
  | _ i ih =>
    match i with
    | 0 => rfl
    | 1 => rfl
    | i + 2 =>
      have h1 := ih (i + 1) (by omega)
      simp only [minor, oF] at *
      rw [h1]; ring

theorem oL_minor (mn : Int) (i : ℕ) : minor (oL mn).a (oL mn).d (oL mn).b 0 i = 1 := by
  induction i using Nat.strong_induction_on with
  | _ i ih =>
    match i with
    | 0 => rfl
    | 1 => rfl
    | i + 2 =>
      have h1 := ih (i + 1) (by omega)
      simp only [minor, oL] at *
      rw [h1]; ring

/-- The claim fails if the first thread ends with the first active row: two surfaces per thread (the
    minimum the program admits) and a mode that starts at the second surface. The second thread takes
    the handover storage before anything was put there, in every interleaving. -/
theorem C114_first_fails : Partition 2 lim4 ∧ (∀ i : ℕ, minor (oF 0).a (oF 0).d (oF 0).b 1 i ≠ 0) ∧
    (∃ s, Reach (sections (fun _ => 1) 4 1 1 lim4) 2 oF s ∧ done 2 s) ∧
    ∀ s, Reach (sections (fun _ => 1) 4 1 1 lim4) 2 oF s → done 2 s →
      ¬ rowHolds (oF 0).a (oF 0).d (oF 0).b 1 4 ((s.mem 0).c 0) ((oF 0).c 0) 2 := by
  refine ⟨lim4_partition, fun i => by rw [oF_minor]; exact one_ne_zero, done_exists _ _ _, fun s hs hd => ?_⟩
  rw [final_seq _ 2 (by omega) oF s hs hd, seq_mode (by omega)]
  unfold rowHolds
  decide +kernel

/-- The claim fails if a thread begins with the last active row and goes beyond: two surfaces per
    thread and a fixed boundary. It leaves nothing for the thread before it, which uses its own
    forward handover. -/
theorem C114_last_fails : Partition 2 lim4 ∧ (∀ i : ℕ, minor (oL 0).a (oL 0).d (oL 0).b 0 i ≠ 0) ∧
    (∃ s, Reach (sections (fun _ => 0) 3 1 1 lim4) 2 oL s ∧ done 2 s) ∧
    ∀ s, Reach (sections (fun _ => 0) 3 1 1 lim4) 2 oL s → done 2 s →
      ¬ rowHolds (oL 0).a (oL 0).d (oL 0).b 0 3 ((s.mem 0).c 0) ((oL 0).c 0) 1 := by
  refine ⟨lim4_partition, fun i => by rw [oL_minor]; exact one_ne_zero, done_exists _ _ _, fun s hs hd => ?_⟩
  rw [final_seq _ 2 (by omega) oL s hs hd, seq_mode (by omega)]
  unfold rowHolds
  decide +kernel

/-! ## Concrete cases -/

/-- nine rows on three threads, as in the test: the conditions hold for a free boundary and a fixed one -/
example : Partition 3 (fun t => 3 * (t : Int)) ∧ Wide 3 (fun t => 3 * (t : Int)) 1 9 ∧ Wide 3 (fun t => 3 * (t : Int)) 0 8 := by
  refine ⟨⟨by omega, rfl, fun t _ => by push_cast; omega⟩, ⟨⟨by norm_num, by norm_num⟩, ?_⟩, ⟨⟨by norm_num, by norm_num⟩, ?_⟩⟩
  all_goals intro t h1 h2; interval_cases t <;> norm_num

/-- three threads do return -/
example : ∃ s, Reach (sections (fun _ => 1) 9 1 1 (fun t => 3 * (t : Int))) 3 oF s ∧ done 3 s := done_exists _ _ _

/-- a thread can be held up: at the start of the forward section thread 1 waits for thread 0 -/
example : (match step (⟨id, fun _ => id, fun _ => id⟩ : Sections Unit) 2 1
    { pc := fun _ => 3, own := fun j => if j = 1 then some 0 else none, mem := () } with
    | .blocked => true | _ => false) = true := by decide

end Verif.TridiagOmp
