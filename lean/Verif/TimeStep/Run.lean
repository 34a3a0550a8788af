import Verif.TimeStep.Lemmas

namespace Verif.TimeStep
open Verif Verif.Coeffs Verif.Partition Verif.Multigrid

variable {q : Setup} {lfreeb : Bool}

structure Setup.Good (q : Setup) (lfreeb : Bool) : Prop where
  mpol : 1 ≤ q.mpol
  ntor : 0 ≤ q.ntor
  team : GoodTeam q.nt q.ns lfreeb q.R

/-! ## the neighbours -/

theorem neighbours (h : q.Good lfreeb) {t : Int} (ht : isThread q.nt t) :
    (hasInside q t = true ↔ 0 < t) ∧ (hasOutside q t = true ↔ t + 1 < q.nt) ∧
    (t + 1 < q.nt → (q.R (t + 1)).nsMinF = (q.R t).nsMaxF) ∧
    (0 < t → (q.R t).nsMinF = (q.R (t - 1)).nsMaxF) := by
  obtain ⟨a1, a2, a3, a4, a5, a6, a7, a8⟩ := team_shape h.team ht
  obtain ⟨h1, h2, h3, hT⟩ := h.team
  have hn : 0 ≤ numSurfacesToDistribute q.ns lfreeb := n_nonneg (by omega)
  have hp : 0 < q.nt := by omega
  have hsucc : ∀ {t}, isThread q.nt t → isThread q.nt (t + 1) → (q.R (t + 1)).nsMinF = (q.R t).nsMaxF := by
    intro t ht ht'
    obtain ⟨-, -, f2, -⟩ := team_facts (by omega) h1 hT ht
    obtain ⟨-, g1, -⟩ := team_facts (by omega) h1 hT ht'
    rw [f2, g1, splitMax_eq_succ hn hp]
  have ht0 := ht.1
  have ht1 := ht.2
  refine ⟨?_, ?_, fun hl => hsucc ht ⟨by omega, hl⟩, fun hl => ?_⟩
  · unfold hasInside
    rw [decide_eq_true_eq]
    constructor
    · intro hh
      by_contra hc
      have := a7 (by omega)
      omega
    · intro hh
      have := a8 (by omega)
      omega
  · unfold hasOutside
    rw [decide_eq_true_eq]
    constructor
    · intro hh
      by_contra hc
      have e : t = q.nt - 1 := by omega
      obtain ⟨-, -, f2, -⟩ := team_facts (by omega) h1 hT ht
      rw [splitMax_eq_succ hn hp, e] at f2
      have e' : q.nt - 1 + 1 = q.nt := by ring
      rw [e', splitMin_last hn hp] at f2
      have hN : q.ns - 1 ≤ numSurfacesToDistribute q.ns lfreeb := by
        unfold numSurfacesToDistribute; split <;> omega
      rw [← e] at f2
      omega
    · intro hh
      have hs := hsucc ht ⟨by omega, hh⟩
      obtain ⟨b1, b2, b3, -⟩ := team_shape h.team (t := t + 1) ⟨by omega, hh⟩
      omega
  · have := hsucc (t := t - 1) ⟨by omega, by omega⟩ ⟨by omega, by omega⟩
    have e : t - 1 + 1 = t := by ring
    rw [e] at this
    exact this

theorem mn_bounds (h : q.Good lfreeb) {m n : Int} (hm : 0 ≤ m ∧ m < q.mpol) (hn : 0 ≤ n ∧ n ≤ q.ntor) :
    0 ≤ m * (q.ntor + 1) + n ∧ m * (q.ntor + 1) + n < q.mnsize := by
  have := pos_bounds (A := 1) (a := 0) (M := q.mpol) (le_refl 0) (by omega) hm.1 hm.2 hn.1 hn.2
  unfold Setup.mnsize
  constructor
  · have := this.1; simpa using this
  · have := this.2; simpa using this

theorem idx_mn1_eq (q : Setup) (t j m n : Int) :
    q.idx_mn1 t j m n = (j - (q.R t).nsMinF1) * q.mnsize + (m * (q.ntor + 1) + n) := by
  unfold Setup.idx_mn1 Setup.mnsize; ring

/-! ## every access is inside its array -/

theorem len_x (h : q.Good lfreeb) {t : Int} (ht : isThread q.nt t) :
    q.len t (q.R t).nsMinF1 (q.R t).nsMaxF1 = ((q.R t).nsMaxF1 - (q.R t).nsMinF1) * q.mpol * (q.ntor + 1) := by
  unfold Setup.len
  dsimp only
  split
  · rename_i e; rw [e]
  · rfl

theorem len_v (h : q.Good lfreeb) {t : Int} (ht : isThread q.nt t) :
    q.len t (q.R t).nsMinF (q.R t).nsMaxF =
      ((q.R t).nsMaxFIncludingLcfs - (q.R t).nsMinF) * q.mpol * (q.ntor + 1) := by
  obtain ⟨a1, a2, a3, a4, a5, a6, a7, a8⟩ := team_shape h.team ht
  unfold Setup.len
  dsimp only
  rw [a6]

theorem x_exists (h : q.Good lfreeb) {t j : Int} (ht : isThread q.nt t) (hj : holds (q.R t) j) {mn : Int}
    (hmn : 0 ≤ mn ∧ mn < q.mnsize) :
    q.exists? .x t ((j - (q.R t).nsMinF1) * q.mnsize + mn) = true := by
  have hmp := h.mpol
  have hnt := h.ntor
  have b := pos_bounds (A := (q.R t).nsMaxF1 - (q.R t).nsMinF1) (a := j - (q.R t).nsMinF1) (M := q.mnsize) (m := mn)
    (N := 0) (n := 0) (by have := hj.1; omega) (by have := hj.2; omega) hmn.1 hmn.2 (le_refl _) (le_refl _)
  unfold Setup.exists?
  have e : ((q.R t).nsMaxF1 - (q.R t).nsMinF1) * q.mpol * (q.ntor + 1)
      = ((q.R t).nsMaxF1 - (q.R t).nsMinF1) * q.mnsize := by unfold Setup.mnsize; ring
  have ht0 := ht.1
  have ht1 := ht.2
  simp only [len_x h ht, e, Bool.and_eq_true, decide_eq_true_eq]
  refine ⟨⟨⟨ht0, ht1⟩, by linarith [b.1]⟩, by linarith [b.2]⟩

theorem v_exists (h : q.Good lfreeb) {t j m n : Int} (ht : isThread q.nt t)
    (hj : (q.R t).nsMinF ≤ j ∧ j < (q.R t).nsMaxFIncludingLcfs) (hm : 0 ≤ m ∧ m < q.mpol)
    (hn : 0 ≤ n ∧ n ≤ q.ntor) :
    q.exists? .v t (q.idx_mn t j m n) = true ∧ q.exists? .f t (q.idx_mn t j m n) = true := by
  have b := pos_bounds (A := (q.R t).nsMaxFIncludingLcfs - (q.R t).nsMinF) (a := j - (q.R t).nsMinF)
    (M := q.mpol) (m := m) (N := q.ntor) (n := n) (by omega) (by omega) hm.1 hm.2 hn.1 hn.2
  unfold Setup.exists? Setup.idx_mn
  have ht0 := ht.1
  have ht1 := ht.2
  simp only [len_v h ht, Bool.and_eq_true, decide_eq_true_eq]
  exact ⟨⟨⟨⟨ht0, ht1⟩, b.1⟩, b.2⟩, ⟨⟨⟨ht0, ht1⟩, b.1⟩, b.2⟩⟩

theorem h_exists {t : Int} (ht : isThread q.nt t) {mn : Int} (hmn : 0 ≤ mn ∧ mn < q.mnsize) :
    q.exists? .ho t (0 + mn) = true ∧ q.exists? .hi t (0 + mn) = true := by
  unfold Setup.exists?
  have ht0 := ht.1
  have ht1 := ht.2
  simp only [Bool.and_eq_true, decide_eq_true_eq]
  exact ⟨⟨⟨⟨ht0, ht1⟩, by omega⟩, by omega⟩, ⟨⟨⟨ht0, ht1⟩, by omega⟩, by omega⟩⟩

theorem own_holds (h : q.Good lfreeb) {t j : Int} (ht : isThread q.nt t)
    (hj : (q.R t).nsMinF ≤ j ∧ j < (q.R t).nsMaxFIncludingLcfs) : holds (q.R t) j := by
  obtain ⟨a1, a2, a3, a4, a5, a6, a7, a8⟩ := team_shape h.team ht
  unfold holds
  rw [a6] at hj
  split at hj <;> omega

theorem phase1_ok (h : q.Good lfreeb) {t : Int} (ht : isThread q.nt t) : ∀ a ∈ phase1 q t, a.ok = true := by
  obtain ⟨n1, n2, n3, n4⟩ := neighbours h ht
  obtain ⟨a1, a2, a3, a4, a5, a6, a7, a8⟩ := team_shape h.team ht
  have ht0 := ht.1
  have ht1 := ht.2
  intro a ha
  unfold phase1 at ha
  rw [List.mem_append, List.mem_append] at ha
  rcases ha with (ha | ha) | ha
  · unfold timeLoop at ha
    obtain ⟨p, hp, ha⟩ := List.mem_flatMap.1 ha
    obtain ⟨hj, hm, hn⟩ := mem_cells.1 hp
    obtain ⟨v1, v2⟩ := v_exists h ht hj hm hn
    have x1 := x_exists h ht (own_holds h ht hj) (mn_bounds h hm hn)
    rw [← idx_mn1_eq] at x1
    unfold cellProg at ha
    rw [List.mem_append, List.mem_map, List.mem_map] at ha
    rcases ha with ⟨c, _, rfl⟩ | ⟨c, _, rfl⟩
    · unfold vAsg; simp [v1, v2]
    · unfold xAsg; simp [x1, v1]
  · split at ha
    · rename_i hi
      have h0 := n1.1 hi
      exact copyProg_ok (fun mn hmn => (h_exists ⟨by omega, by omega⟩ hmn).1)
        (fun mn hmn => x_exists h ht ⟨by omega, by omega⟩ hmn) a ha
    · cases ha
  · split at ha
    · rename_i hi
      have h0 := n2.1 hi
      exact copyProg_ok (fun mn hmn => (h_exists ⟨by omega, by omega⟩ hmn).2)
        (fun mn hmn => x_exists h ht ⟨by omega, by omega⟩ hmn) a ha
    · cases ha

theorem phase2_ok (h : q.Good lfreeb) {t : Int} (ht : isThread q.nt t) : ∀ a ∈ phase2 q t, a.ok = true := by
  obtain ⟨a1, a2, a3, a4, a5, a6, a7, a8⟩ := team_shape h.team ht
  have ht0 := ht.1
  have ht1 := ht.2
  intro a ha
  unfold phase2 at ha
  rw [List.mem_append] at ha
  rcases ha with ha | ha
  · split at ha
    · exact copyProg_ok (fun mn hmn => x_exists h ht ⟨by omega, by omega⟩ hmn)
        (fun mn hmn => (h_exists ht hmn).1) a ha
    · cases ha
  · split at ha
    · exact copyProg_ok (fun mn hmn => x_exists h ht ⟨by omega, by omega⟩ hmn)
        (fun mn hmn => (h_exists ht hmn).2) a ha
    · cases ha

/-! ## footprints of the threads -/

/-- before the barrier: the thread's own objects, the `_o` row of the inner and the `_i` row of the outer
    neighbour -/
def foot1 (t : Int) (k : Key) : Prop :=
  match k.1 with
  | .x | .v | .f => k.2.1 = t
  | .ho => k.2.1 = t - 1
  | .hi => k.2.1 = t + 1

/-- after the barrier: the thread's own objects and its own rows -/
def foot2 (t : Int) (k : Key) : Prop := k.2.1 = t

theorem foot1_disjoint (t u : Int) (k : Key) (h1 : foot1 t k) (h2 : foot1 u k) : t = u := by
  obtain ⟨a, t', r⟩ := k
  unfold foot1 at h1 h2
  cases a <;> dsimp only at h1 h2 <;> omega

theorem phase1_within (t : Int) : ∀ a ∈ phase1 q t, Asg.Within (foot1 t) a := by
  intro a ha
  unfold phase1 at ha
  rw [List.mem_append, List.mem_append] at ha
  rcases ha with (ha | ha) | ha
  · refine (timeLoop_within t a ha).mono ?_
    rintro ⟨b, t', r⟩ ⟨h1, h2⟩
    dsimp only at h1 h2
    unfold foot1
    rcases h2 with rfl | rfl | rfl <;> exact h1
  · split at ha
    · exact copyProg_within (fun c i => rfl) (fun c i => rfl) a ha
    · cases ha
  · split at ha
    · exact copyProg_within (fun c i => rfl) (fun c i => rfl) a ha
    · cases ha

theorem phase2_within (t : Int) : ∀ a ∈ phase2 q t, Asg.Within (foot2 t) a := by
  intro a ha
  unfold phase2 at ha
  rw [List.mem_append] at ha
  rcases ha with ha | ha
  · split at ha
    · exact copyProg_within (fun c i => rfl) (fun c i => rfl) a ha
    · cases ha
  · split at ha
    · exact copyProg_within (fun c i => rfl) (fun c i => rfl) a ha
    · cases ha

/-! ## what the parts compute -/

theorem phase1_x (t : Int) (s : Mem) (k : Key) (hk : k.1 = .x ∨ k.1 = .v ∨ k.1 = .f) :
    Asg.exec (phase1 q t) s k = Asg.exec (timeLoop q t) s k := by
  unfold phase1
  rw [Asg.exec_append, Asg.exec_append]
  have e1 : ∀ s', Asg.exec (if hasOutside q t = true then
      copyProg q .hi .x (t + 1) t 0 (((q.R t).nsMaxF - 1 - (q.R t).nsMinF1) * q.mnsize) else []) s' k = s' k := by
    intro s'
    split
    · refine copyProg_other _ _ _ _ _ _ (fun c mn _ e => ?_)
      rw [e] at hk; simp at hk
    · rfl
  have e2 : ∀ s', Asg.exec (if hasInside q t = true then
      copyProg q .ho .x (t - 1) t 0 (((q.R t).nsMinF - (q.R t).nsMinF1) * q.mnsize) else []) s' k = s' k := by
    intro s'
    split
    · refine copyProg_other _ _ _ _ _ _ (fun c mn _ e => ?_)
      rw [e] at hk; simp at hk
    · rfl
  rw [e1, e2]

theorem phase1_ho {t : Int} (hi : hasInside q t = true) (s : Mem) {c : F} (hc : c ∈ q.members) {mn : Int}
    (hmn : 0 ≤ mn ∧ mn < q.mnsize) :
    Asg.exec (phase1 q t) s (.ho, t - 1, c, mn) =
      Asg.exec (timeLoop q t) s (.x, t, c, ((q.R t).nsMinF - (q.R t).nsMinF1) * q.mnsize + mn) := by
  unfold phase1
  rw [if_pos hi, Asg.exec_append, Asg.exec_append]
  have e1 : ∀ s', Asg.exec (if hasOutside q t = true then
      copyProg q .hi .x (t + 1) t 0 (((q.R t).nsMaxF - 1 - (q.R t).nsMinF1) * q.mnsize) else []) s'
        (.ho, t - 1, c, mn) = s' (.ho, t - 1, c, mn) := by
    intro s'
    split
    · exact copyProg_other _ _ _ _ _ _ (fun c mn _ e => by simp at e)
    · rfl
  rw [e1]
  have := copyProg_value (q := q) (dst := .ho) (src := .x) (by decide) (t - 1) t 0
    (((q.R t).nsMinF - (q.R t).nsMinF1) * q.mnsize) (Asg.exec (timeLoop q t) s) hc hmn
  rwa [zero_add] at this

theorem phase1_hi {t : Int} (hi : hasOutside q t = true) (s : Mem) {c : F} (hc : c ∈ q.members) {mn : Int}
    (hmn : 0 ≤ mn ∧ mn < q.mnsize) :
    Asg.exec (phase1 q t) s (.hi, t + 1, c, mn) =
      Asg.exec (timeLoop q t) s (.x, t, c, ((q.R t).nsMaxF - 1 - (q.R t).nsMinF1) * q.mnsize + mn) := by
  unfold phase1
  rw [if_pos hi, Asg.exec_append, Asg.exec_append]
  have e1 : ∀ s', Asg.exec (if hasInside q t = true then
      copyProg q .ho .x (t - 1) t 0 (((q.R t).nsMinF - (q.R t).nsMinF1) * q.mnsize) else []) s'
        (.x, t, c, ((q.R t).nsMaxF - 1 - (q.R t).nsMinF1) * q.mnsize + mn)
        = s' (.x, t, c, ((q.R t).nsMaxF - 1 - (q.R t).nsMinF1) * q.mnsize + mn) := by
    intro s'
    split
    · exact copyProg_other _ _ _ _ _ _ (fun c mn _ e => by simp at e)
    · rfl
  have := copyProg_value (q := q) (dst := .hi) (src := .x) (by decide) (t + 1) t 0
    (((q.R t).nsMaxF - 1 - (q.R t).nsMinF1) * q.mnsize)
    (Asg.exec (if hasInside q t = true then
      copyProg q .ho .x (t - 1) t 0 (((q.R t).nsMinF - (q.R t).nsMinF1) * q.mnsize) else [])
        (Asg.exec (timeLoop q t) s)) hc hmn
  rw [zero_add] at this
  rw [this, e1]

/-- the two programs of the team after any interleaving -/
theorem phase1_exec {l : List (Asg Key ℝ)} (hl : Asg.Inter (team q (phase1 q)) l) (s : Mem) {t : Int}
    (ht : isThread q.nt t) (k : Key) (hk : foot1 t k) : Asg.exec l s k = Asg.exec (phase1 q t) s k := by
  have := (hl.exec_eq foot1 foot1_disjoint (by
    intro u a ha
    unfold team at ha
    split at ha
    · exact phase1_within u a ha
    · cases ha) s).1 t k hk
  rw [this]
  unfold team
  rw [if_pos (show 0 ≤ t ∧ t < q.nt from ht)]

theorem phase2_exec {l : List (Asg Key ℝ)} (hl : Asg.Inter (team q (phase2 q)) l) (s : Mem) {t : Int}
    (ht : isThread q.nt t) (k : Key) (hk : foot2 t k) : Asg.exec l s k = Asg.exec (phase2 q t) s k := by
  have := (hl.exec_eq foot2 (fun t u k h1 h2 => h1.symm.trans h2) (by
    intro u a ha
    unfold team at ha
    split at ha
    · exact phase2_within u a ha
    · cases ha) s).1 t k hk
  rw [this]
  unfold team
  rw [if_pos (show 0 ≤ t ∧ t < q.nt from ht)]

theorem team_ok (h : q.Good lfreeb) {p : Int → List (Asg Key ℝ)} (hp : ∀ t, isThread q.nt t → ∀ a ∈ p t, a.ok = true)
    {l : List (Asg Key ℝ)} (hl : Asg.Inter (team q p) l) : ∀ a ∈ l, a.ok = true := by
  intro a ha
  obtain ⟨t, ht⟩ := hl.mem a ha
  unfold team at ht
  split at ht
  · rename_i h'; exact hp t h' a ht
  · cases ht

/-- an execution ends in `.ok`, with this memory -/
theorem executes_ok (h : q.Good lfreeb) {s : Mem} {o : Outcome Mem} (ho : Executes q s o) :
    ∃ l1 l2, Asg.Inter (team q (phase1 q)) l1 ∧ Asg.Inter (team q (phase2 q)) l2 ∧
      o = .ok (Asg.exec l2 (Asg.exec l1 s)) := by
  obtain ⟨l1, l2, h1, h2, rfl⟩ := ho
  refine ⟨l1, l2, h1, h2, ?_⟩
  rw [Asg.run_ok _ _ (team_ok h (fun t ht => phase1_ok h ht) h1), Outcome.bind_ok,
    Asg.run_ok _ _ (team_ok h (fun t ht => phase2_ok h ht) h2)]

/-! ## values after the step -/

theorem phase2_outer {t : Int} (ho : hasOutside q t = true) (s : Mem) {c : F}
    (hc : c ∈ q.members) {mn : Int} (hmn : 0 ≤ mn ∧ mn < q.mnsize)
    (hne : (q.R t).nsMinF1 < (q.R t).nsMaxF1 - 1) :
    Asg.exec (phase2 q t) s (.x, t, c, ((q.R t).nsMaxF1 - 1 - (q.R t).nsMinF1) * q.mnsize + mn)
      = s (.ho, t, c, mn) := by
  unfold phase2
  rw [if_pos ho, Asg.exec_append]
  have e1 : ∀ s', Asg.exec (if hasInside q t = true then
      copyProg q .x .hi t t (((q.R t).nsMinF1 - (q.R t).nsMinF1) * q.mnsize) 0 else []) s'
        (.x, t, c, ((q.R t).nsMaxF1 - 1 - (q.R t).nsMinF1) * q.mnsize + mn)
        = s' (.x, t, c, ((q.R t).nsMaxF1 - 1 - (q.R t).nsMinF1) * q.mnsize + mn) := by
    intro s'
    split
    · refine copyProg_other _ _ _ _ _ _ (fun c mn' hmn' e => ?_)
      simp only [Prod.mk.injEq, true_and] at e
      have e' := e.2
      have : (q.R t).nsMaxF1 - 1 - (q.R t).nsMinF1 = (q.R t).nsMinF1 - (q.R t).nsMinF1 :=
        (flat_inj hmn.1 hmn.2 hmn'.1 hmn'.2 e').1
      omega
    · rfl
  rw [e1]
  have := copyProg_value (q := q) (dst := .x) (src := .ho) (by decide) t t
    (((q.R t).nsMaxF1 - 1 - (q.R t).nsMinF1) * q.mnsize) 0 s hc hmn
  rwa [zero_add] at this

theorem phase2_inner {t : Int} (hi : hasInside q t = true) (s : Mem) {c : F}
    (hc : c ∈ q.members) {mn : Int} (hmn : 0 ≤ mn ∧ mn < q.mnsize) :
    Asg.exec (phase2 q t) s (.x, t, c, ((q.R t).nsMinF1 - (q.R t).nsMinF1) * q.mnsize + mn)
      = s (.hi, t, c, mn) := by
  unfold phase2
  rw [if_pos hi, Asg.exec_append]
  have := copyProg_value (q := q) (dst := .x) (src := .hi) (by decide) t t
    (((q.R t).nsMinF1 - (q.R t).nsMinF1) * q.mnsize) 0
    (Asg.exec (if hasOutside q t = true then
      copyProg q .x .ho t t (((q.R t).nsMaxF1 - 1 - (q.R t).nsMinF1) * q.mnsize) 0 else []) s) hc hmn
  rw [zero_add] at this
  rw [this]
  split
  · exact copyProg_other _ _ _ _ _ _ (fun c mn _ e => by simp at e)
  · rfl

theorem phase2_own (h : q.Good lfreeb) {t : Int} (ht : isThread q.nt t) (s : Mem) {c : F} {j mn : Int}
    (hj : (q.R t).nsMinF ≤ j ∧ j < (q.R t).nsMaxFIncludingLcfs) (hmn : 0 ≤ mn ∧ mn < q.mnsize) :
    Asg.exec (phase2 q t) s (.x, t, c, (j - (q.R t).nsMinF1) * q.mnsize + mn)
      = s (.x, t, c, (j - (q.R t).nsMinF1) * q.mnsize + mn) := by
  obtain ⟨a1, a2, a3, a4, a5, a6, a7, a8⟩ := team_shape h.team ht
  unfold phase2
  rw [Asg.exec_append]
  have e1 : ∀ s', Asg.exec (if hasInside q t = true then
      copyProg q .x .hi t t (((q.R t).nsMinF1 - (q.R t).nsMinF1) * q.mnsize) 0 else []) s'
        (.x, t, c, (j - (q.R t).nsMinF1) * q.mnsize + mn)
        = s' (.x, t, c, (j - (q.R t).nsMinF1) * q.mnsize + mn) := by
    intro s'
    split
    · rename_i hi
      refine copyProg_other _ _ _ _ _ _ (fun c mn' hmn' e => ?_)
      simp only [Prod.mk.injEq, true_and] at e
      have e' := e.2
      have := (flat_inj hmn.1 hmn.2 hmn'.1 hmn'.2 e').1
      unfold hasInside at hi
      rw [decide_eq_true_eq] at hi
      omega
    · rfl
  rw [e1]
  split
  · rename_i hi
    refine copyProg_other _ _ _ _ _ _ (fun c mn' hmn' e => ?_)
    simp only [Prod.mk.injEq, true_and] at e
    have e' := e.2
    have := (flat_inj hmn.1 hmn.2 hmn'.1 hmn'.2 e').1
    unfold hasOutside at hi
    rw [decide_eq_true_eq] at hi
    rw [a6, if_neg (by omega)] at hj
    omega
  · rfl

theorem phase2_vf (t : Int) (s : Mem) (k : Key) (hk : k.1 = .v ∨ k.1 = .f) :
    Asg.exec (phase2 q t) s k = s k := by
  unfold phase2
  rw [Asg.exec_append]
  have e1 : ∀ s', Asg.exec (if hasInside q t = true then
      copyProg q .x .hi t t (((q.R t).nsMinF1 - (q.R t).nsMinF1) * q.mnsize) 0 else []) s' k = s' k := by
    intro s'
    split
    · refine copyProg_other _ _ _ _ _ _ (fun c mn _ e => ?_)
      rw [e] at hk; simp at hk
    · rfl
  rw [e1]
  split
  · refine copyProg_other _ _ _ _ _ _ (fun c mn _ e => ?_)
    rw [e] at hk; simp at hk
  · rfl

end Verif.TimeStep
