import Verif.TridiagOmp.Model
import Mathlib.Tactic.Linarith
import Mathlib.Order.Basic
import Mathlib.Algebra.BigOperators.Group.Finset.Basic
import Mathlib.Algebra.Order.BigOperators.Group.Finset

/-!
# The locking protocol of `TridiagonalSolveOpenMP`: invariant, order, absence of deadlock
-/
namespace Verif.TridiagOmp
open Verif

variable {Δ : Type}

theorem set_same {α : Type} (f : ℕ → α) (i : ℕ) (v : α) : set f i v i = v := by simp [set]
theorem set_ne {α : Type} (f : ℕ → α) {i j : ℕ} (v : α) (h : j ≠ i) : set f i v j = f j := by simp [set, h]

/-- thread `u` holds mutex `j`, read off the instruction counters -/
def holds (n : ℕ) (pc : ℕ → ℕ) (j u : ℕ) : Prop :=
  u < n ∧ j < n ∧
    ((j = u + 1 ∧ 2 ≤ pc u ∧ pc u ≤ 6) ∨
     (j = u ∧ (pc u = 4 ∨ pc u = 5 ∨ pc u = 10 ∨ pc u = 11)) ∨
     (j + 1 = u ∧ 8 ≤ pc u ∧ pc u ≤ 12))

/-- memory after the head, `p` forward sections and `q` backward sections in the intended order -/
def seq (P : Sections Δ) (n : ℕ) (d : Δ) (p q : ℕ) : Δ :=
  (List.range q).foldl (fun m i => P.bwd (n - 1 - i) m)
    ((List.range p).foldl (fun m i => P.fwd i m) (P.head d))

structure Inv (P : Sections Δ) (n : ℕ) (d : Δ) (s : Sys Δ) : Prop where
  own : ∀ j u, s.own j = some u ↔ holds n s.pc j u
  top : ∀ t < n, s.pc t ≤ 14
  barA : ∀ t < n, ∀ u < n, 3 ≤ s.pc t → 2 ≤ s.pc u
  barB : ∀ t < n, ∀ u < n, 9 ≤ s.pc t → 8 ≤ s.pc u
  barC : ∀ t < n, ∀ u < n, 14 ≤ s.pc t → 13 ≤ s.pc u
  ordF : ∀ t, t + 1 < n → 4 ≤ s.pc (t + 1) → 7 ≤ s.pc t
  ordB : ∀ t, t + 1 < n → 10 ≤ s.pc t → 13 ≤ s.pc (t + 1)
  mem : ∃ p q, p ≤ n ∧ q ≤ n ∧ (∀ t < n, 5 ≤ s.pc t ↔ t < p) ∧ (∀ t < n, 11 ≤ s.pc t ↔ n ≤ t + q) ∧
    s.mem = if s.pc 0 = 0 then d else seq P n d p q

theorem own_take {n : ℕ} {pc pc' : ℕ → ℕ} {own : ℕ → Option ℕ} {m t : ℕ}
    (h : ∀ j u, own j = some u ↔ holds n pc j u) (hm : own m = none)
    (hd : ∀ j u, holds n pc' j u ↔ holds n pc j u ∨ (j = m ∧ u = t)) :
    ∀ j u, set own m (some t) j = some u ↔ holds n pc' j u := by
  intro j u
  rw [hd, ← h]
  by_cases hj : j = m
  · subst hj; rw [set_same, hm]; simp [eq_comm]
  · rw [set_ne _ _ hj]; simp [hj]

theorem own_drop {n : ℕ} {pc pc' : ℕ → ℕ} {own : ℕ → Option ℕ} {m t : ℕ}
    (h : ∀ j u, own j = some u ↔ holds n pc j u) (hm : own m = some t)
    (hd : ∀ j u, holds n pc' j u ↔ holds n pc j u ∧ ¬ (j = m ∧ u = t)) :
    ∀ j u, set own m none j = some u ↔ holds n pc' j u := by
  intro j u
  rw [hd, ← h]
  by_cases hj : j = m
  · subst hj; rw [set_same, hm]; simp [eq_comm]
  · rw [set_ne _ _ hj]; simp [hj]

theorem set_cases (pc : ℕ → ℕ) (t v u : ℕ) : (u = t ∧ set pc t v u = v) ∨ (u ≠ t ∧ set pc t v u = pc u) := by
  by_cases h : u = t
  · left; exact ⟨h, by rw [h, set_same]⟩
  · right; exact ⟨h, set_ne _ _ h⟩

/-- the parts of the invariant that speak about the instruction counters only -/
structure Ctl (n : ℕ) (pc : ℕ → ℕ) : Prop where
  top : ∀ t < n, pc t ≤ 14
  barA : ∀ t < n, ∀ u < n, 3 ≤ pc t → 2 ≤ pc u
  barB : ∀ t < n, ∀ u < n, 9 ≤ pc t → 8 ≤ pc u
  barC : ∀ t < n, ∀ u < n, 14 ≤ pc t → 13 ≤ pc u
  ordF : ∀ t, t + 1 < n → 4 ≤ pc (t + 1) → 7 ≤ pc t
  ordB : ∀ t, t + 1 < n → 10 ≤ pc t → 13 ≤ pc (t + 1)

/-- one thread goes on -/
theorem Ctl.adv {n : ℕ} {pc : ℕ → ℕ} (h : Ctl n pc) {t : ℕ} (ht : t < n) (h14 : pc t < 14)
    (hA : pc t = 2 → ∀ u < n, 2 ≤ pc u) (hB : pc t = 8 → ∀ u < n, 8 ≤ pc u) (hC : pc t = 13 → ∀ u < n, 13 ≤ pc u)
    (hF : pc t = 3 → ∀ u, u + 1 = t → 7 ≤ pc u) (hR : pc t = 9 → t + 1 < n → 13 ≤ pc (t + 1)) :
    Ctl n (set pc t (pc t + 1)) := by
  constructor
  · intro u hu
    rcases set_cases pc t (pc t + 1) u with ⟨e, e2⟩ | ⟨e, e2⟩ <;> rw [e2]
    · omega
    · exact h.top u hu
  · intro u hu v hv
    have h1 := h.barA u hu v hv
    have h2 := h.barA t ht v hv
    have h3 := fun x => hA x v hv
    have h4 := h.barA u hu t ht
    rcases set_cases pc t (pc t + 1) u with ⟨e, e2⟩ | ⟨e, e2⟩ <;>
    rcases set_cases pc t (pc t + 1) v with ⟨e', e3⟩ | ⟨e', e3⟩ <;> rw [e2, e3] <;> omega
  · intro u hu v hv
    have h1 := h.barB u hu v hv
    have h2 := h.barB t ht v hv
    have h3 := fun x => hB x v hv
    have h4 := h.barB u hu t ht
    rcases set_cases pc t (pc t + 1) u with ⟨e, e2⟩ | ⟨e, e2⟩ <;>
    rcases set_cases pc t (pc t + 1) v with ⟨e', e3⟩ | ⟨e', e3⟩ <;> rw [e2, e3] <;> omega
  · intro u hu v hv
    have h1 := h.barC u hu v hv
    have h2 := h.barC t ht v hv
    have h3 := fun x => hC x v hv
    have h4 := h.barC u hu t ht
    rcases set_cases pc t (pc t + 1) u with ⟨e, e2⟩ | ⟨e, e2⟩ <;>
    rcases set_cases pc t (pc t + 1) v with ⟨e', e3⟩ | ⟨e', e3⟩ <;> rw [e2, e3] <;> omega
  · intro u hu
    have h1 := h.ordF u hu
    have h3 := fun x y => hF x u y
    rcases set_cases pc t (pc t + 1) u with ⟨e, e2⟩ | ⟨e, e2⟩ <;>
    rcases set_cases pc t (pc t + 1) (u + 1) with ⟨e', e3⟩ | ⟨e', e3⟩ <;> rw [e2, e3]
    · omega
    · rw [e] at h1; rw [e]; omega
    · rw [e'] at h1; omega
    · exact h1
  · intro u hu
    have h1 := h.ordB u hu
    rcases set_cases pc t (pc t + 1) u with ⟨e, e2⟩ | ⟨e, e2⟩ <;>
    rcases set_cases pc t (pc t + 1) (u + 1) with ⟨e', e3⟩ | ⟨e', e3⟩ <;> rw [e2, e3]
    · omega
    · rw [e] at h1 hu; rw [e]; have := fun x => hR x hu; omega
    · rw [e'] at h1; omega
    · exact h1

theorem Inv.ctl {P : Sections Δ} {n : ℕ} {d : Δ} {s : Sys Δ} (h : Inv P n d s) : Ctl n s.pc :=
  ⟨h.top, h.barA, h.barB, h.barC, h.ordF, h.ordB⟩

/-- the memory part, for a step that is no section -/
theorem mem_keep {P : Sections Δ} {n : ℕ} {d : Δ} {s : Sys Δ} (h : Inv P n d s) {t : ℕ}
    (h0 : s.pc t = 0 → t ≠ 0) (h4 : s.pc t ≠ 4) (h10 : s.pc t ≠ 10) :
    ∃ p q, p ≤ n ∧ q ≤ n ∧ (∀ u < n, 5 ≤ set s.pc t (s.pc t + 1) u ↔ u < p) ∧
      (∀ u < n, 11 ≤ set s.pc t (s.pc t + 1) u ↔ n ≤ u + q) ∧
      s.mem = if set s.pc t (s.pc t + 1) 0 = 0 then d else seq P n d p q := by
  obtain ⟨p, q, hp, hq, h1, h2, h3⟩ := h.mem
  refine ⟨p, q, hp, hq, ?_, ?_, ?_⟩
  · intro u hu
    rw [← h1 u hu]
    rcases set_cases s.pc t (s.pc t + 1) u with ⟨e, e2⟩ | ⟨e, e2⟩ <;> rw [e2]
    rw [e]; omega
  · intro u hu
    rw [← h2 u hu]
    rcases set_cases s.pc t (s.pc t + 1) u with ⟨e, e2⟩ | ⟨e, e2⟩ <;> rw [e2]
    rw [e]; omega
  · rw [h3]
    rcases set_cases s.pc t (s.pc t + 1) 0 with ⟨e, e2⟩ | ⟨e, e2⟩ <;> rw [e2]
    subst e
    rw [if_neg (by omega), if_neg (by omega)]

/-- assembling the invariant -/
theorem Inv.mk' {P : Sections Δ} {n : ℕ} {d : Δ} {s : Sys Δ}
    (ho : ∀ j u, s.own j = some u ↔ holds n s.pc j u) (hc : Ctl n s.pc)
    (hm : ∃ p q, p ≤ n ∧ q ≤ n ∧ (∀ t < n, 5 ≤ s.pc t ↔ t < p) ∧ (∀ t < n, 11 ≤ s.pc t ↔ n ≤ t + q) ∧
      s.mem = if s.pc 0 = 0 then d else seq P n d p q) : Inv P n d s :=
  ⟨ho, hc.top, hc.barA, hc.barB, hc.barC, hc.ordF, hc.ordB, hm⟩

theorem holds_set {n : ℕ} {pc : ℕ → ℕ} {t v : ℕ} (j u : ℕ) :
    holds n (set pc t v) j u ↔ (u ≠ t ∧ holds n pc j u) ∨ (u = t ∧ holds n (fun _ => v) j t) := by
  unfold holds
  rcases set_cases pc t v u with ⟨e, e2⟩ | ⟨e, e2⟩
  · subst e; simp [e2]
  · simp [e2, e]

theorem holds_same {n : ℕ} {pc : ℕ → ℕ} {t : ℕ} (hk : ∀ j, holds n (fun _ => pc t + 1) j t ↔ holds n pc j t) (j u : ℕ) :
    holds n (set pc t (pc t + 1)) j u ↔ holds n pc j u := by
  rw [holds_set]
  by_cases e : u = t
  · subst e; simp [hk]
  · simp [e]

theorem holds_plus {n : ℕ} {pc : ℕ → ℕ} {t m : ℕ}
    (hk : ∀ j, holds n (fun _ => pc t + 1) j t ↔ holds n pc j t ∨ j = m) (j u : ℕ) :
    holds n (set pc t (pc t + 1)) j u ↔ holds n pc j u ∨ (j = m ∧ u = t) := by
  rw [holds_set]
  by_cases e : u = t
  · subst e; simp [hk]
  · simp [e]

theorem holds_minus {n : ℕ} {pc : ℕ → ℕ} {t m : ℕ}
    (hk : ∀ j, holds n (fun _ => pc t + 1) j t ↔ holds n pc j t ∧ j ≠ m) (j u : ℕ) :
    holds n (set pc t (pc t + 1)) j u ↔ holds n pc j u ∧ ¬ (j = m ∧ u = t) := by
  rw [holds_set]
  by_cases e : u = t
  · subst e; simp [hk]
  · simp [e]

theorem free_iff {P : Sections Δ} {n : ℕ} {d : Δ} {s : Sys Δ} (h : Inv P n d s) (m : ℕ) :
    s.own m = none ↔ ∀ u, ¬ holds n s.pc m u := by
  constructor
  · intro e u hu
    rw [← h.own, e] at hu; cases hu
  · intro e
    cases hm : s.own m with
    | none => rfl
    | some u => exact absurd ((h.own m u).1 hm) (e u)

theorem lock_go {m t : ℕ} {s s' : Sys Δ} (h : lock m t s = .go s') :
    s.own m = none ∧ s' = { adv t s with own := set s.own m (some t) } := by
  unfold lock at h
  cases e : s.own m with
  | none => rw [e] at h; simp only [Res.go.injEq] at h; exact ⟨rfl, h.symm⟩
  | some u => rw [e] at h; simp only at h; split at h <;> cases h

theorem unlock_go {m t : ℕ} {s s' : Sys Δ} (h : unlock m t s = .go s') :
    s.own m = some t ∧ s' = { adv t s with own := set s.own m none } := by
  unfold unlock at h
  split at h
  · rename_i e; simp only [Res.go.injEq] at h; exact ⟨e, h.symm⟩
  · cases h

theorem barrier_go {n t : ℕ} {s s' : Sys Δ} (h : barrier n t s = .go s') :
    (∀ u < n, s.pc t ≤ s.pc u) ∧ s' = adv t s := by
  unfold barrier at h
  split at h
  · rename_i e; simp only [Res.go.injEq] at h; exact ⟨e, h.symm⟩
  · cases h

theorem inv_start (P : Sections Δ) (n : ℕ) (d : Δ) : Inv P n d (start d) := by
  refine ⟨?_, ?_, ?_, ?_, ?_, ?_, ?_, ⟨0, 0, ?_⟩⟩ <;> simp [start, holds]

theorem inv_step {P : Sections Δ} {n : ℕ} {d : Δ} {s s' : Sys Δ} {t : ℕ} (h : Inv P n d s) (ht : t < n)
    (hs : step P n t s = .go s') : Inv P n d s' := by
  have ctl := h.ctl
  have fr := free_iff h
  have htop := h.top t ht
  have hlt : s.pc t ≠ 14 := by
    intro e; rw [step, e] at hs; cases hs
  -- a step that takes no mutex and is no section
  have plain : s' = adv t s → (∀ j, holds n (fun _ => s.pc t + 1) j t ↔ holds n s.pc j t) → (s.pc t = 0 → t ≠ 0) →
      s.pc t ≠ 4 → s.pc t ≠ 10 → Ctl n (set s.pc t (s.pc t + 1)) → Inv P n d s' := by
    intro e hk h0 h4 h10 hc
    subst e
    exact Inv.mk' (fun j u => by rw [show (adv t s).pc = set s.pc t (s.pc t + 1) from rfl, holds_same hk]; exact h.own j u)
      hc (mem_keep h h0 h4 h10)
  have take : ∀ m, lock m t s = .go s' → (∀ j, holds n (fun _ => s.pc t + 1) j t ↔ holds n s.pc j t ∨ j = m) → s.pc t ≠ 0 →
      s.pc t ≠ 4 → s.pc t ≠ 10 → (s.own m = none → Ctl n (set s.pc t (s.pc t + 1))) → Inv P n d s' := by
    intro m e hk h0 h4 h10 hc
    obtain ⟨e1, rfl⟩ := lock_go e
    exact Inv.mk' (own_take h.own e1 (holds_plus hk)) (hc e1) (mem_keep h (fun x => absurd x h0) h4 h10)
  have drop : ∀ m, unlock m t s = .go s' → (∀ j, holds n (fun _ => s.pc t + 1) j t ↔ holds n s.pc j t ∧ j ≠ m) → s.pc t ≠ 0 →
      s.pc t ≠ 4 → s.pc t ≠ 10 → Ctl n (set s.pc t (s.pc t + 1)) → Inv P n d s' := by
    intro m e hk h0 h4 h10 hc
    obtain ⟨e1, rfl⟩ := unlock_go e
    exact Inv.mk' (own_drop h.own e1 (holds_minus hk)) hc (mem_keep h (fun x => absurd x h0) h4 h10)
  have hcases : s.pc t = 0 ∨ s.pc t = 1 ∨ s.pc t = 2 ∨ s.pc t = 3 ∨ s.pc t = 4 ∨ s.pc t = 5 ∨ s.pc t = 6 ∨ s.pc t = 7 ∨
    s.pc t = 8 ∨ s.pc t = 9 ∨ s.pc t = 10 ∨ s.pc t = 11 ∨ s.pc t = 12 ∨ s.pc t = 13 := by omega
  have ctl' := @Ctl.adv n s.pc ctl t ht (by omega)
  rcases hcases with e | e | e | e | e | e | e | e | e | e | e | e | e | e <;> rw [step, e] at hs <;> simp only at hs
  · -- head
    by_cases t0 : t = 0
    · subst t0
      rw [if_pos rfl, work] at hs
      simp only [Res.go.injEq] at hs
      subst hs
      have hc := ctl' (by omega) (by omega) (by omega) (by omega) (by omega)
      obtain ⟨p, q, hp, hq, h1, h2, h3⟩ := h.mem
      have p0 : p = 0 := by
        by_contra hp0
        have := (h1 0 ht).2 (by omega); omega
      have q0 : q = 0 := by
        by_contra hq0
        have h8 := (h2 (n - 1) (by omega)).2 (by omega)
        have := h.barA (n - 1) (by omega) 0 ht (by omega)
        omega
      subst p0; subst q0
      refine Inv.mk' (fun j u => ?_) hc ⟨0, 0, hp, hq, ?_, ?_, ?_⟩
      · rw [show ({ adv 0 s with mem := P.head s.mem } : Sys Δ).pc = set s.pc 0 (s.pc 0 + 1) from rfl, holds_same]
        · exact h.own j u
        · intro j; simp only [holds]; omega
      · intro u hu
        rw [← h1 u hu]
        show 5 ≤ set s.pc 0 (s.pc 0 + 1) u ↔ _
        rcases set_cases s.pc 0 (s.pc 0 + 1) u with ⟨e1, e2⟩ | ⟨e1, e2⟩ <;> rw [e2]
        rw [e1]; omega
      · intro u hu
        rw [← h2 u hu]
        show 11 ≤ set s.pc 0 (s.pc 0 + 1) u ↔ _
        rcases set_cases s.pc 0 (s.pc 0 + 1) u with ⟨e1, e2⟩ | ⟨e1, e2⟩ <;> rw [e2]
        rw [e1]; omega
      · show P.head s.mem = if set s.pc 0 (s.pc 0 + 1) 0 = 0 then d else _
        rw [set_same, if_neg (by omega), h3, if_pos e]
        rfl
    · rw [if_neg t0] at hs
      simp only [Res.go.injEq] at hs
      exact plain hs.symm (by intro j; simp only [holds]; omega) (fun _ => t0) (by omega) (by omega)
        (ctl' (by omega) (by omega) (by omega) (by omega) (by omega))
  · by_cases hn : t + 1 < n
    · rw [if_pos hn] at hs
      exact take _ hs (by intro j; simp only [holds]; omega) (by omega) (by omega) (by omega)
        (fun _ => ctl' (by omega) (by omega) (by omega) (by omega) (by omega))
    · rw [if_neg hn] at hs
      simp only [Res.go.injEq] at hs
      exact plain hs.symm (by intro j; simp only [holds]; omega) (by omega) (by omega) (by omega)
        (ctl' (by omega) (by omega) (by omega) (by omega) (by omega))
  · obtain ⟨hb, hs⟩ := barrier_go hs
    exact plain hs (by intro j; simp only [holds]; omega) (by omega) (by omega) (by omega)
      (ctl' (fun _ u hu => by have := hb u hu; omega) (by omega) (by omega) (by omega) (by omega))
  · refine take _ hs (by intro j; simp only [holds]; omega) (by omega) (by omega) (by omega)
      (fun hf => ctl' (by omega) (by omega) (by omega) (fun _ u hu => ?_) (by omega))
    have h1 := (fr t).1 hf u
    have h2 := h.barA t ht u (by omega) (by omega)
    unfold holds at h1
    omega
  · -- forward
    rw [work] at hs
    simp only [Res.go.injEq] at hs
    subst hs
    have hc := ctl' (by omega) (by omega) (by omega) (by omega) (by omega)
    obtain ⟨p, q, hp, hq, h1, h2, h3⟩ := h.mem
    have tp : t = p := by
      have a1 := h1 t ht
      rcases Nat.lt_trichotomy t p with x | x | x
      · have := a1.2 x; omega
      · exact x
      · have := h1 p (by omega)
        have hh : ∀ k, p + k + 1 ≤ t → 7 ≤ s.pc (t - 1 - k) := by
          intro k
          induction k with
          | zero =>
            intro hk
            have := h.ordF (t - 1) (by omega)
            rw [show t - 1 + 1 = t by omega] at this
            exact this (by omega)
          | succ k ih =>
            intro hk
            have := h.ordF (t - 1 - (k + 1)) (by omega)
            rw [show t - 1 - (k + 1) + 1 = t - 1 - k by omega] at this
            exact this (by have := ih (by omega); omega)
        have := hh (t - 1 - p) (by omega)
        rw [show t - 1 - (t - 1 - p) = p by omega] at this
        omega
    have q0 : q = 0 := by
      by_contra hq0
      have h8 := (h2 (n - 1) (by omega)).2 (by omega)
      have := h.barB (n - 1) (by omega) t ht (by omega)
      omega
    subst tp; subst q0
    refine Inv.mk' (fun j u => ?_) hc ⟨t + 1, 0, by omega, hq, ?_, ?_, ?_⟩
    · rw [show ({ adv t s with mem := P.fwd t s.mem } : Sys Δ).pc = set s.pc t (s.pc t + 1) from rfl, holds_same]
      · exact h.own j u
      · intro j; simp only [holds]; omega
    · intro u hu
      have := h1 u hu
      show 5 ≤ set s.pc t (s.pc t + 1) u ↔ _
      rcases set_cases s.pc t (s.pc t + 1) u with ⟨e1, e2⟩ | ⟨e1, e2⟩ <;> rw [e2] <;> omega
    · intro u hu
      have := h2 u hu
      show 11 ≤ set s.pc t (s.pc t + 1) u ↔ _
      rcases set_cases s.pc t (s.pc t + 1) u with ⟨e1, e2⟩ | ⟨e1, e2⟩ <;> rw [e2] <;> omega
    · have z : s.pc 0 ≠ 0 := by
        have := h.barA t ht 0 (by omega) (by omega); omega
      have z' : set s.pc t (s.pc t + 1) 0 ≠ 0 := by
        rcases set_cases s.pc t (s.pc t + 1) 0 with ⟨e1, e2⟩ | ⟨e1, e2⟩ <;> rw [e2] <;> omega
      show P.fwd t s.mem = if set s.pc t (s.pc t + 1) 0 = 0 then d else _
      rw [if_neg z', h3, if_neg z]
      simp [seq, List.range_succ]
  · exact drop _ hs (by intro j; simp only [holds]; omega) (by omega) (by omega) (by omega)
      (ctl' (by omega) (by omega) (by omega) (by omega) (by omega))
  · by_cases hn : t + 1 < n
    · rw [if_pos hn] at hs
      exact drop _ hs (by intro j; simp only [holds]; omega) (by omega) (by omega) (by omega)
        (ctl' (by omega) (by omega) (by omega) (by omega) (by omega))
    · rw [if_neg hn] at hs
      simp only [Res.go.injEq] at hs
      exact plain hs.symm (by intro j; simp only [holds]; omega) (by omega) (by omega) (by omega)
        (ctl' (by omega) (by omega) (by omega) (by omega) (by omega))
  · by_cases hn : 0 < t
    · rw [if_pos hn] at hs
      exact take _ hs (by intro j; simp only [holds]; omega) (by omega) (by omega) (by omega)
        (fun _ => ctl' (by omega) (by omega) (by omega) (by omega) (by omega))
    · rw [if_neg hn] at hs
      simp only [Res.go.injEq] at hs
      exact plain hs.symm (by intro j; simp only [holds]; omega) (by omega) (by omega) (by omega)
        (ctl' (by omega) (by omega) (by omega) (by omega) (by omega))
  · obtain ⟨hb, hs⟩ := barrier_go hs
    exact plain hs (by intro j; simp only [holds]; omega) (by omega) (by omega) (by omega)
      (ctl' (by omega) (fun _ u hu => by have := hb u hu; omega) (by omega) (by omega) (by omega))
  · refine take _ hs (by intro j; simp only [holds]; omega) (by omega) (by omega) (by omega)
      (fun hf => ctl' (by omega) (by omega) (by omega) (by omega) (fun _ hu => ?_))
    have h1 := (fr t).1 hf (t + 1)
    have h2 := h.barB t ht (t + 1) hu (by omega)
    unfold holds at h1
    omega
  · -- backward
    rw [work] at hs
    simp only [Res.go.injEq] at hs
    subst hs
    have hc := ctl' (by omega) (by omega) (by omega) (by omega) (by omega)
    obtain ⟨p, q, hp, hq, h1, h2, h3⟩ := h.mem
    have pn : p = n := by
      by_contra hpn
      have h4 := h1 p (by omega)
      have := h.barB t ht p (by omega) (by omega)
      omega
    have tq : t + q + 1 = n := by
      have a1 := h2 t ht
      by_contra hne
      have hlt : t + q + 1 < n := by omega
      have hh : ∀ k, t + 1 + k + q < n → 13 ≤ s.pc (t + 1 + k) := by
        intro k
        induction k with
        | zero => intro hk; exact h.ordB t (by omega) (by omega)
        | succ k ih =>
          intro hk
          exact h.ordB (t + 1 + k) (by omega) (by have := ih (by omega); omega)
      have a2 := hh (n - q - 2 - t) (by omega)
      have a3 := h2 (t + 1 + (n - q - 2 - t)) (by omega)
      omega
    subst pn
    refine Inv.mk' (fun j u => ?_) hc ⟨p, q + 1, hp, by omega, ?_, ?_, ?_⟩
    · rw [show ({ adv t s with mem := P.bwd t s.mem } : Sys Δ).pc = set s.pc t (s.pc t + 1) from rfl, holds_same]
      · exact h.own j u
      · intro j; simp only [holds]; omega
    · intro u hu
      have := h1 u hu
      show 5 ≤ set s.pc t (s.pc t + 1) u ↔ _
      rcases set_cases s.pc t (s.pc t + 1) u with ⟨e1, e2⟩ | ⟨e1, e2⟩ <;> rw [e2] <;> omega
    · intro u hu
      have := h2 u hu
      show 11 ≤ set s.pc t (s.pc t + 1) u ↔ _
      rcases set_cases s.pc t (s.pc t + 1) u with ⟨e1, e2⟩ | ⟨e1, e2⟩ <;> rw [e2] <;> omega
    · have z : s.pc 0 ≠ 0 := by
        have := h.barA t ht 0 (by omega) (by omega); omega
      have z' : set s.pc t (s.pc t + 1) 0 ≠ 0 := by
        rcases set_cases s.pc t (s.pc t + 1) 0 with ⟨e1, e2⟩ | ⟨e1, e2⟩ <;> rw [e2] <;> omega
      show P.bwd t s.mem = if set s.pc t (s.pc t + 1) 0 = 0 then d else _
      rw [if_neg z', h3, if_neg z]
      have : p - 1 - q = t := by omega
      simp [seq, List.range_succ, this]
  · exact drop _ hs (by intro j; simp only [holds]; omega) (by omega) (by omega) (by omega)
      (ctl' (by omega) (by omega) (by omega) (by omega) (by omega))
  · by_cases hn : 0 < t
    · rw [if_pos hn] at hs
      exact drop _ hs (by intro j; simp only [holds]; omega) (by omega) (by omega) (by omega)
        (ctl' (by omega) (by omega) (by omega) (by omega) (by omega))
    · rw [if_neg hn] at hs
      simp only [Res.go.injEq] at hs
      exact plain hs.symm (by intro j; simp only [holds]; omega) (by omega) (by omega) (by omega)
        (ctl' (by omega) (by omega) (by omega) (by omega) (by omega))
  · obtain ⟨hb, hs⟩ := barrier_go hs
    exact plain hs (by intro j; simp only [holds]; omega) (by omega) (by omega) (by omega)
      (ctl' (by omega) (by omega) (fun _ u hu => by have := hb u hu; omega) (by omega) (by omega))

theorem inv_reach {P : Sections Δ} {n : ℕ} {d : Δ} {s : Sys Δ} (h : Reach P n d s) : Inv P n d s := by
  induction h with
  | init => exact inv_start P n d
  | next s s' t _ ht hs ih => exact inv_step ih ht hs

theorem lock_ub {m t : ℕ} {s : Sys Δ} (h : lock m t s = .ub) : s.own m = some t := by
  unfold lock at h
  cases e : s.own m with
  | none => rw [e] at h; cases h
  | some u =>
    rw [e] at h; simp only at h
    split at h
    · rename_i e2; rw [e2]
    · cases h

theorem unlock_ub {m t : ℕ} {s : Sys Δ} (h : unlock m t s = .ub) : s.own m ≠ some t := by
  unfold unlock at h
  split at h
  · cases h
  · assumption

theorem no_ub {P : Sections Δ} {n : ℕ} {d : Δ} {s : Sys Δ} (h : Inv P n d s) {t : ℕ} (ht : t < n) :
    step P n t s ≠ .ub := by
  intro hs
  have htop := h.top t ht
  have hl : ∀ m, lock m t s = .ub → holds n s.pc m t := fun m e => (h.own m t).1 (lock_ub e)
  have hu : ∀ m, unlock m t s = .ub → ¬ holds n s.pc m t := fun m e x => unlock_ub e ((h.own m t).2 x)
  have hb : barrier n t s ≠ .ub := by unfold barrier; split <;> simp
  have hcases : s.pc t = 0 ∨ s.pc t = 1 ∨ s.pc t = 2 ∨ s.pc t = 3 ∨ s.pc t = 4 ∨ s.pc t = 5 ∨ s.pc t = 6 ∨ s.pc t = 7 ∨
    s.pc t = 8 ∨ s.pc t = 9 ∨ s.pc t = 10 ∨ s.pc t = 11 ∨ s.pc t = 12 ∨ s.pc t = 13 ∨ s.pc t = 14 := by omega
  rcases hcases with e | e | e | e | e | e | e | e | e | e | e | e | e | e | e <;> rw [step, e] at hs <;> simp only at hs
  · split at hs <;> cases hs
  · split at hs
    · have := hl _ hs; simp only [holds] at this; omega
    · cases hs
  · exact hb hs
  · have := hl _ hs; simp only [holds] at this; omega
  · cases hs
  · exact hu _ hs (by simp [holds, e]; omega)
  · split at hs
    · exact hu _ hs (by simp [holds, e]; omega)
    · cases hs
  · split at hs
    · have := hl _ hs; simp only [holds] at this; omega
    · cases hs
  · exact hb hs
  · have := hl _ hs; simp only [holds] at this; omega
  · cases hs
  · exact hu _ hs (by simp [holds, e]; omega)
  · split at hs
    · exact hu _ hs (by simp [holds, e]; omega)
    · cases hs
  · exact hb hs
  · cases hs

theorem lock_free {m t : ℕ} {s : Sys Δ} (h : s.own m = none) : ∃ s', lock m t s = .go s' := by
  unfold lock; rw [h]; exact ⟨_, rfl⟩

theorem barrier_free {n t : ℕ} {s : Sys Δ} (h : ∀ u < n, s.pc t ≤ s.pc u) : ∃ s', barrier n t s = .go s' := by
  unfold barrier; rw [if_pos h]; exact ⟨_, rfl⟩

/-- the least thread with a property, if one has it -/
theorem least {n : ℕ} {q : ℕ → Prop} (h : ∃ t, t < n ∧ q t) : ∃ t, t < n ∧ q t ∧ ∀ u < t, ¬ q u := by
  classical
  obtain ⟨t, ht, hq⟩ := h
  refine ⟨Nat.find ⟨t, hq⟩, ?_, Nat.find_spec ⟨t, hq⟩, fun u hu => Nat.find_min _ hu⟩
  exact lt_of_le_of_lt (Nat.find_min' _ hq) ht

/-- the greatest -/
theorem greatest {n : ℕ} {q : ℕ → Prop} (h : ∃ t, t < n ∧ q t) : ∃ t, t < n ∧ q t ∧ ∀ u, t < u → u < n → ¬ q u := by
  obtain ⟨t, ht, hq⟩ := h
  obtain ⟨i, hi, hqi, hm⟩ := least (n := n) (q := fun i => q (n - 1 - i))
    ⟨n - 1 - t, by omega, by rw [show n - 1 - (n - 1 - t) = t by omega]; exact hq⟩
  refine ⟨n - 1 - i, by omega, hqi, fun u hu hun hqu => hm (n - 1 - u) (by omega) ?_⟩
  rw [show n - 1 - (n - 1 - u) = u by omega]; exact hqu

theorem progress {P : Sections Δ} {n : ℕ} {d : Δ} {s : Sys Δ} (h : Inv P n d s) (hn : ∃ t < n, s.pc t ≠ 14) :
    ∃ t < n, ∃ s', step P n t s = .go s' := by
  by_contra hno
  push Not at hno
  have st : ∀ t < n, ¬ ∃ s', step P n t s = .go s' := fun t ht ⟨s', e⟩ => hno t ht s' e
  have fr := free_iff h
  have nub := fun t ht => no_ub h (t := t) ht
  have ul : ∀ m t, unlock m t s ≠ .ub → ∃ s', unlock m t s = .go s' := by
    intro m t; unfold unlock; split <;> simp
  -- no thread is at an instruction that never waits
  have k : ∀ t < n, s.pc t ≠ 4 ∧ s.pc t ≠ 5 ∧ s.pc t ≠ 6 ∧ s.pc t ≠ 10 ∧ s.pc t ≠ 11 ∧ s.pc t ≠ 12 ∧ s.pc t ≠ 0 := by
    intro t ht
    have h1 := st t ht
    have h2 := nub t ht
    refine ⟨fun e => ?_, fun e => ?_, fun e => ?_, fun e => ?_, fun e => ?_, fun e => ?_, fun e => ?_⟩ <;>
      rw [step, e] at h1 h2 <;> simp only at h1 h2
    · exact h1 ⟨_, rfl⟩
    · exact h1 (ul _ _ h2)
    · split at h1
      · rw [if_pos (by assumption)] at h2; exact h1 (ul _ _ h2)
      · exact h1 ⟨_, rfl⟩
    · exact h1 ⟨_, rfl⟩
    · exact h1 (ul _ _ h2)
    · split at h1
      · rw [if_pos (by assumption)] at h2; exact h1 (ul _ _ h2)
      · exact h1 ⟨_, rfl⟩
    · split at h1
      · exact h1 ⟨_, rfl⟩
      · exact h1 ⟨_, rfl⟩
  -- instruction 1
  have k1 : ∀ t < n, s.pc t ≠ 1 := by
    intro t ht e
    have h1 := st t ht
    rw [step, e] at h1; simp only at h1
    split at h1
    · apply h1
      apply lock_free
      rw [fr]
      intro u hu
      simp only [holds] at hu
      have a := h.barA u hu.1 t ht
      have b := k u hu.1
      rcases hu.2.2 with c | c | c
      · have : u = t := by omega
        subst this; omega
      · omega
      · omega
    · exact h1 ⟨_, rfl⟩
  have k2 : ∀ t < n, s.pc t ≠ 2 := by
    intro t ht e
    have h1 := st t ht
    rw [step, e] at h1; simp only at h1
    apply h1
    apply barrier_free
    intro u hu
    have := k u hu; have := k1 u hu; omega
  have k3 : ∀ t < n, s.pc t ≠ 3 := by
    intro t ht e
    obtain ⟨t, ht, e, hm⟩ := least (n := n) (q := fun t => s.pc t = 3) ⟨t, ht, e⟩
    have h1 := st t ht
    rw [step, e] at h1; simp only at h1
    apply h1
    apply lock_free
    rw [fr]
    intro u hu
    simp only [holds] at hu
    have b := k u hu.1
    have b1 := k1 u hu.1
    have b2 := k2 u hu.1
    rcases hu.2.2 with c | c | c
    · have := hm u (by omega); omega
    · omega
    · have := h.ordF t (by omega)
      rw [c.1] at this; omega
  have k7 : ∀ t < n, s.pc t ≠ 7 := by
    intro t ht e
    have h1 := st t ht
    rw [step, e] at h1; simp only at h1
    split at h1
    · apply h1
      apply lock_free
      rw [fr]
      intro u hu
      simp only [holds] at hu
      have b := k u hu.1
      have b1 := k1 u hu.1
      have b2 := k2 u hu.1
      have b3 := k3 u hu.1
      rcases hu.2.2 with c | c | c
      · omega
      · omega
      · have : u = t := by omega
        subst this; omega
    · exact h1 ⟨_, rfl⟩
  have k8 : ∀ t < n, s.pc t ≠ 8 := by
    intro t ht e
    have h1 := st t ht
    rw [step, e] at h1; simp only at h1
    apply h1
    apply barrier_free
    intro u hu
    have := k u hu; have := k1 u hu; have := k2 u hu; have := k3 u hu; have := k7 u hu; omega
  have k9 : ∀ t < n, s.pc t ≠ 9 := by
    intro t ht e
    obtain ⟨t, ht, e, hm⟩ := greatest (n := n) (q := fun t => s.pc t = 9) ⟨t, ht, e⟩
    have h1 := st t ht
    rw [step, e] at h1; simp only at h1
    apply h1
    apply lock_free
    rw [fr]
    intro u hu
    simp only [holds] at hu
    have b := k u hu.1
    have b1 := k1 u hu.1
    have b2 := k2 u hu.1
    have b3 := k3 u hu.1
    have b7 := k7 u hu.1
    have b8 := k8 u hu.1
    rcases hu.2.2 with c | c | c
    · omega
    · omega
    · have := hm u (by omega) hu.1; omega
  obtain ⟨t, ht, e⟩ := hn
  have h1 := st t ht
  have : s.pc t = 13 := by
    have := h.top t ht
    have := k t ht; have := k1 t ht; have := k2 t ht; have := k3 t ht; have := k7 t ht; have := k8 t ht; have := k9 t ht
    omega
  rw [step, this] at h1; simp only at h1
  apply h1
  apply barrier_free
  intro u hu
  have := h.top u hu
  have := k u hu; have := k1 u hu; have := k2 u hu; have := k3 u hu; have := k7 u hu; have := k8 u hu; have := k9 u hu
  omega

/-- a step moves one thread by one instruction -/
theorem step_pc {P : Sections Δ} {n t : ℕ} {s s' : Sys Δ} (hs : step P n t s = .go s') :
    s'.pc = set s.pc t (s.pc t + 1) := by
  have hl : ∀ m, lock m t s = .go s' → s'.pc = set s.pc t (s.pc t + 1) := fun m e => by rw [(lock_go e).2]; rfl
  have hu : ∀ m, unlock m t s = .go s' → s'.pc = set s.pc t (s.pc t + 1) := fun m e => by rw [(unlock_go e).2]; rfl
  have hb : barrier n t s = .go s' → s'.pc = set s.pc t (s.pc t + 1) := fun e => by rw [(barrier_go e).2]; rfl
  have ha : Res.go (adv t s) = .go s' → s'.pc = set s.pc t (s.pc t + 1) := fun e => by
    simp only [Res.go.injEq] at e; rw [← e]; rfl
  have hw : ∀ f, work t f s = .go s' → s'.pc = set s.pc t (s.pc t + 1) := fun f e => by
    simp only [work, Res.go.injEq] at e; rw [← e]; rfl
  unfold step at hs
  split at hs
  · split at hs
    · exact hw _ hs
    · exact ha hs
  · split at hs
    · exact hl _ hs
    · exact ha hs
  · exact hb hs
  · exact hl _ hs
  · exact hw _ hs
  · exact hu _ hs
  · split at hs
    · exact hu _ hs
    · exact ha hs
  · split at hs
    · exact hl _ hs
    · exact ha hs
  · exact hb hs
  · exact hl _ hs
  · exact hw _ hs
  · exact hu _ hs
  · split at hs
    · exact hu _ hs
    · exact ha hs
  · exact hb hs
  · cases hs

theorem sum_set {n : ℕ} (pc : ℕ → ℕ) {t : ℕ} (ht : t < n) :
    ∑ u ∈ Finset.range n, set pc t (pc t + 1) u = ∑ u ∈ Finset.range n, pc u + 1 := by
  have hm : t ∈ Finset.range n := Finset.mem_range.2 ht
  rw [← Finset.add_sum_erase _ _ hm, ← Finset.add_sum_erase _ pc hm, set_same]
  have : ∑ u ∈ (Finset.range n).erase t, set pc t (pc t + 1) u = ∑ u ∈ (Finset.range n).erase t, pc u :=
    Finset.sum_congr rfl (fun u hu => set_ne _ _ (Finset.ne_of_mem_erase hu))
  rw [this]; omega

end Verif.TridiagOmp
