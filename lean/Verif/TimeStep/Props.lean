import Verif.TimeStep.Run
import Verif.Multigrid.Props

/-!
# C42: after a time step all threads agree on the surfaces they share

Specification: a *global* state is a function `G c j m n` of the array, the surface and the mode. The step on a
global state is the textbook formula `nextV`, `nextX`; it knows nothing about threads.
-/
namespace Verif.TimeStep
open Verif Verif.Coeffs Verif.Partition Verif.Multigrid

/-- a quantity as a function of the array, the surface and the mode numbers -/
abbrev Global := F → Int → Int → Int → ℝ

variable {q : Setup} {lfreeb : Bool}

/-- the copies of the surfaces a thread advances -/
def OwnX (q : Setup) (s : Mem) (G : Global) : Prop :=
  ∀ t j m n c, isThread q.nt t → ((q.R t).nsMinF ≤ j ∧ j < (q.R t).nsMaxFIncludingLcfs) →
    (0 ≤ m ∧ m < q.mpol) → (0 ≤ n ∧ n ≤ q.ntor) → c ∈ q.members →
    s (.x, t, c, fcIdx (q.R t).nsMinF1 q.mpol q.ntor j m n) = G c j m n

/-- all copies, also those of the neighbour's surfaces -/
def AllX (q : Setup) (s : Mem) (G : Global) : Prop :=
  ∀ t j m n c, isThread q.nt t → holds (q.R t) j →
    (0 ≤ m ∧ m < q.mpol) → (0 ≤ n ∧ n ≤ q.ntor) → c ∈ q.members →
    s (.x, t, c, fcIdx (q.R t).nsMinF1 q.mpol q.ntor j m n) = G c j m n

/-- velocities (`.v`) or forces (`.f`) -/
def OwnVF (q : Setup) (a : Arr) (s : Mem) (G : Global) : Prop :=
  ∀ t j m n c, isThread q.nt t → ((q.R t).nsMinF ≤ j ∧ j < (q.R t).nsMaxFIncludingLcfs) →
    (0 ≤ m ∧ m < q.mpol) → (0 ≤ n ∧ n ≤ q.ntor) → c ∈ q.members →
    s (a, t, c, fcIdx (q.R t).nsMinF q.mpol q.ntor j m n) = G c j m n

/-- new velocity on a global state -/
noncomputable def nextV (velocity_scale conjugation_parameter time_step : ℝ) (V Fo : Global) : Global :=
  fun c j m n => velocity_scale * (conjugation_parameter * V c j m n + time_step * Fo c j m n)

/-- new coefficients on a global state, given the new velocity -/
noncomputable def nextX (time_step : ℝ) (G V' : Global) : Global :=
  fun c j m n => G c j m n + time_step * V' c j m n

theorem AllX.own (h : q.Good lfreeb) {s : Mem} {G : Global} (hx : AllX q s G) : OwnX q s G :=
  fun t j m n c ht hj hm hn hc => hx t j m n c ht (own_holds h ht hj) hm hn hc

theorem foot1_x (t : Int) (c : F) (i : Int) : foot1 t (.x, t, c, i) := rfl
theorem foot1_v (t : Int) (c : F) (i : Int) : foot1 t (.v, t, c, i) := rfl
theorem foot1_hi (t : Int) (c : F) (i : Int) : foot1 t (.hi, t + 1, c, i) := rfl
theorem foot1_ho (t : Int) (c : F) (i : Int) : foot1 t (.ho, t - 1, c, i) := rfl
theorem idx_mn1_fc (q : Setup) (t j m n : Int) : q.idx_mn1 t j m n = fcIdx (q.R t).nsMinF1 q.mpol q.ntor j m n := rfl
theorem idx_mn_fc (q : Setup) (t j m n : Int) : q.idx_mn t j m n = fcIdx (q.R t).nsMinF q.mpol q.ntor j m n := rfl

/-- **C42** Whatever the order in which the threads execute their assignments between the barriers: the time step
    stays inside all arrays, and afterwards *every* copy of every surface, including the ghost copies of the
    neighbours' surfaces, is the textbook step applied to the owners' values. The old ghost values do not
    matter. -/
theorem C42_step (h : q.Good lfreeb) (s : Mem) (o : Outcome Mem) (G V Fo : Global) (hx : OwnX q s G)
    (hv : OwnVF q .v s V) (hf : OwnVF q .f s Fo) (ho : Executes q s o) :
    ∃ s', o = .ok s' ∧
      AllX q s' (nextX q.time_step G (nextV q.velocity_scale q.conjugation_parameter q.time_step V Fo)) ∧
      OwnVF q .v s' (nextV q.velocity_scale q.conjugation_parameter q.time_step V Fo) := by
  obtain ⟨l1, l2, h1, h2, rfl⟩ := executes_ok h ho
  refine ⟨_, rfl, ?_, ?_⟩
  · -- the value the owner has before the barrier
    have own : ∀ t j m n c, isThread q.nt t → ((q.R t).nsMinF ≤ j ∧ j < (q.R t).nsMaxFIncludingLcfs) →
        (0 ≤ m ∧ m < q.mpol) → (0 ≤ n ∧ n ≤ q.ntor) → c ∈ q.members →
        Asg.exec (timeLoop q t) s (.x, t, c, (j - (q.R t).nsMinF1) * q.mnsize + (m * (q.ntor + 1) + n)) =
          nextX q.time_step G (nextV q.velocity_scale q.conjugation_parameter q.time_step V Fo) c j m n := by
      intro t j m n c ht hj hm hn hc
      have := (timeLoop_value s t (mem_cells.2 ⟨hj, hm, hn⟩) hc).2
      rw [← idx_mn1_eq, this]
      unfold newV
      rw [idx_mn1_fc, idx_mn_fc, hx t j m n c ht hj hm hn hc, hv t j m n c ht hj hm hn hc,
        hf t j m n c ht hj hm hn hc]
      rfl
    intro t j m n c ht hj hm hn hc
    have hmn := mn_bounds h hm hn
    obtain ⟨a1, a2, a3, a4, a5, a6, a7, a8⟩ := team_shape h.team ht
    obtain ⟨n1, n2, n3, n4⟩ := neighbours h ht
    rw [phase2_exec h2 _ ht _ (rfl : foot2 t (.x, t, c, _)), ← idx_mn1_fc, idx_mn1_eq]
    have ht0 := ht.1
    have ht1 := ht.2
    by_cases hown : (q.R t).nsMinF ≤ j ∧ j < (q.R t).nsMaxFIncludingLcfs
    · rw [phase2_own h ht _ hown hmn, phase1_exec h1 s ht _ (foot1_x t c _),
        phase1_x t s _ (Or.inl rfl), own t j m n c ht hown hm hn hc]
    · unfold holds at hj
      by_cases hlow : j < (q.R t).nsMinF
      · have hi : hasInside q t = true := by unfold hasInside; rw [decide_eq_true_eq]; omega
        have h0 := n1.1 hi
        have ht' : isThread q.nt (t - 1) := ⟨by omega, by omega⟩
        have e : j = (q.R t).nsMinF1 := by omega
        have hprev := n4 h0
        obtain ⟨b1, b2, b3, b4, b5, b6, -⟩ := team_shape h.team ht'
        obtain ⟨-, m2, -, -⟩ := neighbours h ht'
        have hout : hasOutside q (t - 1) = true := m2.2 (by omega)
        rw [e, phase2_inner hi _ hc hmn]
        have ek : ((.hi, t, c, m * (q.ntor + 1) + n) : Key) = (.hi, t - 1 + 1, c, m * (q.ntor + 1) + n) := by
          rw [show t - 1 + 1 = t by ring]
        rw [ek, phase1_exec h1 s ht' _ (foot1_hi (t - 1) c _), phase1_hi hout s hc hmn]
        have hlcfs : (q.R (t - 1)).nsMaxF - 1 < (q.R (t - 1)).nsMaxFIncludingLcfs := by
          rw [b6]; split <;> omega
        rw [own (t - 1) _ m n c ht' ⟨by omega, hlcfs⟩ hm hn hc]
        have : (q.R (t - 1)).nsMaxF - 1 = (q.R t).nsMinF1 := by omega
        rw [this]
      · have hbig : (q.R t).nsMaxFIncludingLcfs ≤ j := by omega
        have hnl : (q.R t).nsMaxF1 ≠ q.ns := by
          intro e
          rw [a6, if_pos e] at hbig
          omega
        rw [a6, if_neg hnl] at hbig
        have hout : hasOutside q t = true := by unfold hasOutside; rw [decide_eq_true_eq]; omega
        have h0 := n2.1 hout
        have ht' : isThread q.nt (t + 1) := ⟨by omega, by omega⟩
        have e : j = (q.R t).nsMaxF1 - 1 := by omega
        have hnext := n3 h0
        obtain ⟨b1, b2, b3, b4, b5, b6, -⟩ := team_shape h.team ht'
        obtain ⟨m1, -, -, -⟩ := neighbours h ht'
        have hin : hasInside q (t + 1) = true := m1.2 (by omega)
        rw [e, phase2_outer hout _ hc hmn (by omega)]
        have ek : ((.ho, t, c, m * (q.ntor + 1) + n) : Key) = (.ho, t + 1 - 1, c, m * (q.ntor + 1) + n) := by
          rw [show t + 1 - 1 = t by ring]
        rw [ek, phase1_exec h1 s ht' _ (foot1_ho (t + 1) c _), phase1_ho hin s hc hmn]
        have hlcfs : (q.R (t + 1)).nsMinF < (q.R (t + 1)).nsMaxFIncludingLcfs := by
          rw [b6]; split <;> omega
        rw [own (t + 1) _ m n c ht' ⟨le_refl _, hlcfs⟩ hm hn hc]
        have : (q.R (t + 1)).nsMinF = (q.R t).nsMaxF1 - 1 := by omega
        rw [this]
  · intro t j m n c ht hj hm hn hc
    rw [phase2_exec h2 _ ht _ (rfl : foot2 t (.v, t, c, _)), phase2_vf t _ _ (Or.inl rfl),
      phase1_exec h1 s ht _ (foot1_v t c _), phase1_x t s _ (Or.inr (Or.inl rfl)), ← idx_mn_fc,
      (timeLoop_value s t (mem_cells.2 ⟨hj, hm, hn⟩) hc).1]
    unfold newV
    rw [idx_mn_fc, hv t j m n c ht hj hm hn hc, hf t j m n c ht hj hm hn hc]
    rfl

/-- **C42** There are no data races: before and after the inner barrier, an assignment of one thread neither
    writes what another thread's assignment writes nor changes anything that assignment reads. -/
theorem C42_race_free (q : Setup) (t u : Int) (htu : t ≠ u) (a b : Asg Key ℝ)
    (hab : (a ∈ phase1 q t ∧ b ∈ phase1 q u) ∨ (a ∈ phase2 q t ∧ b ∈ phase2 q u)) :
    a.key ≠ b.key ∧ ∀ (s : Mem) (x : ℝ), b.val (fun k => if k = a.key then x else s k) = b.val s := by
  have key : ∀ P Q : Key → Prop, (∀ k, P k → ¬ Q k) → Asg.Within P a → Asg.Within Q b →
      a.key ≠ b.key ∧ ∀ (s : Mem) (x : ℝ), b.val (fun k => if k = a.key then x else s k) = b.val s := by
    intro P Q hPQ ha hb
    refine ⟨fun e => hPQ _ ha.1 (e ▸ hb.1), fun s x => hb.2 _ _ (fun k hk => ?_)⟩
    rw [if_neg (fun e : k = a.key => hPQ _ ha.1 (e ▸ hk))]
  rcases hab with ⟨ha, hb⟩ | ⟨ha, hb⟩
  · exact key _ _ (fun k h1 h2 => htu (foot1_disjoint t u k h1 h2)) (phase1_within t a ha) (phase1_within u b hb)
  · exact key _ _ (fun k h1 h2 => htu (h1.symm.trans h2)) (phase2_within t a ha) (phase2_within u b hb)

/-- **C42** Two threads that hold the same surface agree on it after the step. -/
theorem C42_agree (h : q.Good lfreeb) (s : Mem) (o : Outcome Mem) (G V Fo : Global) (hx : OwnX q s G)
    (hv : OwnVF q .v s V) (hf : OwnVF q .f s Fo) (ho : Executes q s o) :
    ∃ s', o = .ok s' ∧ ∀ t t' j m n c, isThread q.nt t → isThread q.nt t' → holds (q.R t) j → holds (q.R t') j →
      (0 ≤ m ∧ m < q.mpol) → (0 ≤ n ∧ n ≤ q.ntor) → c ∈ q.members →
      s' (.x, t, c, fcIdx (q.R t).nsMinF1 q.mpol q.ntor j m n) =
        s' (.x, t', c, fcIdx (q.R t').nsMinF1 q.mpol q.ntor j m n) := by
  obtain ⟨s', e, hx', -⟩ := C42_step h s o G V Fo hx hv hf ho
  exact ⟨s', e, fun t t' j m n c ht ht' hj hj' hm hn hc =>
    (hx' t j m n c ht hj hm hn hc).trans (hx' t' j m n c ht' hj' hm hn hc).symm⟩

/-! ## any number of steps -/

/-- the parameters and forces of one step -/
structure StepData where
  velocity_scale : ℝ
  conjugation_parameter : ℝ
  time_step : ℝ
  force : Global

/-- the same team with the parameters of one step -/
def Setup.with (q : Setup) (d : StepData) : Setup :=
  { q with velocity_scale := d.velocity_scale, conjugation_parameter := d.conjugation_parameter,
           time_step := d.time_step }

/-- A run of the team: before each step the rest of the program may change forces, handover arrays and ghost
    copies arbitrarily, as long as the owners' forces become the given ones and the owners' coefficients and
    velocities stay. -/
inductive Runs (q : Setup) : Mem → List StepData → Mem → Prop where
  | nil (s) : Runs q s [] s
  | cons (s s1 s2 s3 : Mem) (d : StepData) (ds : List StepData) :
      (∀ G, OwnX q s G → OwnX q s1 G) → (∀ V, OwnVF q .v s V → OwnVF q .v s1 V) → OwnVF q .f s1 d.force →
      Executes (q.with d) s1 (.ok s2) → Runs q s2 ds s3 → Runs q s (d :: ds) s3

/-- the run of one global state -/
noncomputable def globalRun : Global × Global → List StepData → Global × Global
  | gv, [] => gv
  | (G, V), d :: ds =>
    let V' := nextV d.velocity_scale d.conjugation_parameter d.time_step V d.force
    globalRun (nextX d.time_step G V', V') ds

/-- **C42** Any number of steps: the distributed state is always the sequential one, in every copy. -/
theorem C42_run (h : q.Good lfreeb) (s s' : Mem) (ds : List StepData) (G V : Global) (hx : AllX q s G)
    (hv : OwnVF q .v s V) (hr : Runs q s ds s') :
    AllX q s' (globalRun (G, V) ds).1 ∧ OwnVF q .v s' (globalRun (G, V) ds).2 := by
  induction hr generalizing G V with
  | nil s => exact ⟨hx, hv⟩
  | cons s s1 s2 s3 d ds hx1 hv1 hf1 he hr ih =>
    have hg : (q.with d).Good lfreeb := ⟨h.mpol, h.ntor, h.team⟩
    obtain ⟨s'', e, b1, b2⟩ := C42_step hg s1 (.ok s2) G V d.force (hx1 G (hx.own h)) (hv1 V hv) hf1 he
    cases e
    exact ih _ _ b1 b2

/-- **C42** The number of threads does not matter: two teams (for instance one of them a single thread) that start
    from the same state and receive the same forces have the same state after any number of steps. -/
theorem C42_team_independent (q' : Setup) {lfreeb' : Bool} (h : q.Good lfreeb) (h' : q'.Good lfreeb')
    (e1 : q'.mpol = q.mpol) (e2 : q'.ntor = q.ntor) (e3 : q'.lasym = q.lasym)
    (s s1 z z1 : Mem) (ds : List StepData) (G V : Global) (hx : AllX q s G) (hv : OwnVF q .v s V)
    (hx' : AllX q' z G) (hv' : OwnVF q' .v z V) (hr : Runs q s ds s1) (hr' : Runs q' z ds z1)
    (t t' j m n : Int) (c : F) (ht : isThread q.nt t) (ht' : isThread q'.nt t') (hj : holds (q.R t) j)
    (hj' : holds (q'.R t') j) (hm : 0 ≤ m ∧ m < q.mpol) (hn : 0 ≤ n ∧ n ≤ q.ntor) (hc : c ∈ q.members) :
    s1 (.x, t, c, fcIdx (q.R t).nsMinF1 q.mpol q.ntor j m n) =
      z1 (.x, t', c, fcIdx (q'.R t').nsMinF1 q'.mpol q'.ntor j m n) := by
  have a := (C42_run h s s1 ds G V hx hv hr).1 t j m n c ht hj hm hn hc
  have em : q'.members = q.members := by unfold Setup.members Setup.lthreed; rw [e2, e3]
  have b := (C42_run h' z z1 ds G V hx' hv' hr').1 t' j m n c ht' hj' (by rwa [e1]) (by rwa [e2]) (by rwa [em])
  rw [a, b]

/-- **C42** Executions exist from every memory. -/
theorem C42_exists (q : Setup) (s : Mem) : ∃ o, Executes q s o := by
  have : ∀ p : Int → List (Asg Key ℝ), Asg.Inter (team q p) ((irange 0 q.nt).flatMap (team q p)) := by
    intro p
    refine Asg.Inter.sequential _ _ (irange_nodup _ _) (fun t ht => ?_)
    rw [mem_irange] at ht
    unfold team
    rw [if_neg ht]
  exact ⟨_, _, _, this (phase1 q), this (phase2 q), rfl⟩

/-! ## a concrete case -/

/-- 11 surfaces on five threads -/
noncomputable def demo : Setup where
  mpol := 3
  ntor := 1
  lasym := true
  ns := 11
  nt := 5
  R := Multigrid.demo.rNew
  velocity_scale := 1 / 2
  conjugation_parameter := 3 / 4
  time_step := 9 / 10

theorem demo_good : demo.Good false :=
  ⟨(by decide : (1 : Int) ≤ 3), (by decide : (0 : Int) ≤ 1), Multigrid.demo_good.new⟩

/-- any global state can be distributed over any team -/
theorem exists_mem (q : Setup) (G V Fo : Global) :
    ∃ s, OwnX q s G ∧ OwnVF q .v s V ∧ OwnVF q .f s Fo := by
  classical
  have inj : ∀ {j0 j m n j' m' n' : Int}, 0 ≤ m ∧ m < q.mpol → 0 ≤ n ∧ n ≤ q.ntor → 0 ≤ m' ∧ m' < q.mpol →
      0 ≤ n' ∧ n' ≤ q.ntor → fcIdx j0 q.mpol q.ntor j m n = fcIdx j0 q.mpol q.ntor j' m' n' →
      j = j' ∧ m = m' ∧ n = n' :=
    fun hm hn hm' hn' e => fcIdx_inj hm.1 hm.2 hn.1 hn.2 hm'.1 hm'.2 hn'.1 hn'.2 e
  let val (H : Global) (j0 : Int) (c : F) (i : Int) : ℝ :=
    if hh : ∃ p : Int × Int × Int, (0 ≤ p.2.1 ∧ p.2.1 < q.mpol) ∧ (0 ≤ p.2.2 ∧ p.2.2 ≤ q.ntor) ∧
      fcIdx j0 q.mpol q.ntor p.1 p.2.1 p.2.2 = i then H c hh.choose.1 hh.choose.2.1 hh.choose.2.2 else 0
  have hval : ∀ H j0 c j m n, 0 ≤ m ∧ m < q.mpol → 0 ≤ n ∧ n ≤ q.ntor →
      val H j0 c (fcIdx j0 q.mpol q.ntor j m n) = H c j m n := by
    intro H j0 c j m n hm hn
    have hh : ∃ p : Int × Int × Int, (0 ≤ p.2.1 ∧ p.2.1 < q.mpol) ∧ (0 ≤ p.2.2 ∧ p.2.2 ≤ q.ntor) ∧
      fcIdx j0 q.mpol q.ntor p.1 p.2.1 p.2.2 = fcIdx j0 q.mpol q.ntor j m n := ⟨(j, m, n), hm, hn, rfl⟩
    have sp := hh.choose_spec
    obtain ⟨i1, i2, i3⟩ := inj sp.1 sp.2.1 hm hn sp.2.2
    show (if hh : _ then _ else _) = _
    rw [dif_pos hh, i1, i2, i3]
  refine ⟨fun k => match k with
    | (.x, t, c, i) => val G (q.R t).nsMinF1 c i
    | (.v, t, c, i) => val V (q.R t).nsMinF c i
    | (.f, t, c, i) => val Fo (q.R t).nsMinF c i
    | _ => 0, ?_, ?_, ?_⟩
  · intro t j m n c _ _ hm hn _; exact hval _ _ _ _ _ _ hm hn
  · intro t j m n c _ _ hm hn _; exact hval _ _ _ _ _ _ hm hn
  · intro t j m n c _ _ hm hn _; exact hval _ _ _ _ _ _ hm hn

/-- threads 1 and 2 of the five both hold surface 4 and, after the step, the value `4 + 0.9·0.5·(0.75·8 + 0.9·2)` -/
example : ∃ s s' : Mem, Executes demo s (.ok s') ∧
    s' (.x, 1, .rcc, fcIdx 1 3 1 4 2 1) = 4 + 9 / 10 * (1 / 2 * (3 / 4 * 8 + 9 / 10 * 2)) ∧
    s' (.x, 2, .rcc, fcIdx 3 3 1 4 2 1) = 4 + 9 / 10 * (1 / 2 * (3 / 4 * 8 + 9 / 10 * 2)) := by
  obtain ⟨s, h1, h2, h3⟩ := exists_mem demo (fun _ j _ _ => (j : ℝ)) (fun _ _ _ _ => 8) (fun _ _ m _ => (m : ℝ))
  obtain ⟨o, ho⟩ := C42_exists demo s
  obtain ⟨s', e, hx, -⟩ := C42_step demo_good s o _ _ _ h1 h2 h3 ho
  subst e
  refine ⟨s, s', ho, ?_, ?_⟩
  · have := hx 1 4 2 1 .rcc (by unfold isThread demo; decide) (by unfold holds demo; decide)
      (by unfold demo; decide) (by unfold demo; decide) (by decide)
    refine Eq.trans this ?_
    simp [nextX, nextV, demo]
  · have := hx 2 4 2 1 .rcc (by unfold isThread demo; decide) (by unfold holds demo; decide)
      (by unfold demo; decide) (by unfold demo; decide) (by decide)
    refine Eq.trans this ?_
    simp [nextX, nextV, demo]

end Verif.TimeStep
