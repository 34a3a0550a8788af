import Verif.TimeStep.Model
import Verif.Multigrid.Lemmas

namespace Verif.TimeStep
open Verif Verif.Coeffs Verif.Partition Verif.Multigrid

/-! ## copies -/

/-- a list of assignments that read only what none of them writes -/
theorem exec_copies {K α : Type} [DecidableEq K] (P : K → Prop) (l : List (Asg K α))
    (hk : ∀ a ∈ l, ¬ P a.key) (hv : ∀ a ∈ l, ∀ s s' : K → α, (∀ k, P k → s k = s' k) → a.val s = a.val s')
    (s : K → α) (k : K) (h : ∃ a ∈ l, a.key = k) : ∃ a ∈ l, a.key = k ∧ Asg.exec l s k = a.val s := by
  induction l generalizing s with
  | nil => obtain ⟨a, ha, _⟩ := h; cases ha
  | cons a l ih =>
    by_cases hl : ∃ b ∈ l, b.key = k
    · obtain ⟨b, hb, e, ev⟩ := ih (fun b hb => hk b (by simp [hb])) (fun b hb => hv b (by simp [hb])) (a.exec1 s) hl
      refine ⟨b, by simp [hb], e, ?_⟩
      rw [Asg.exec_cons, ev]
      refine hv b (by simp [hb]) _ _ (fun k' hk' => ?_)
      unfold Asg.exec1
      rw [if_neg (fun e' : k' = a.key => hk a (by simp) (e' ▸ hk'))]
    · have hn : ∀ b ∈ l, b.key ≠ k := fun b hb e => hl ⟨b, hb, e⟩
      obtain ⟨b, hb, e⟩ := h
      have hba : b = a := by
        rcases List.mem_cons.1 hb with h | h
        · exact h
        · exact absurd e (hn b h)
      subst hba
      refine ⟨b, by simp, e, ?_⟩
      rw [Asg.exec_cons, Asg.exec_unwritten l _ hn]
      unfold Asg.exec1
      rw [if_pos e.symm]

variable {q : Setup}

theorem mem_groups (q : Setup) (c : F) : (∃ g ∈ q.groups, c ∈ g) ↔ c ∈ q.members := by
  unfold Setup.groups Setup.members Multigrid.members
  cases q.lthreed <;> cases q.lasym <;> cases c <;> simp

theorem members_nodup (q : Setup) : q.members.Nodup := by
  unfold Setup.members Multigrid.members
  cases q.lthreed <;> cases q.lasym <;> decide

theorem mem_copyProg {dst src : Arr} {dt st doff soff : Int} {a : Asg Key ℝ} :
    a ∈ copyProg q dst src dt st doff soff ↔ ∃ c mn, c ∈ q.members ∧ (0 ≤ mn ∧ mn < q.mnsize) ∧
      a = { ok := q.exists? dst dt (doff + mn) && q.exists? src st (soff + mn)
            key := (dst, dt, c, doff + mn)
            val := fun s => s (src, st, c, soff + mn) } := by
  unfold copyProg
  simp only [List.mem_flatMap, List.mem_map, mem_irange]
  constructor
  · rintro ⟨g, hg, mn, hmn, c, hc, rfl⟩
    exact ⟨c, mn, (mem_groups q c).1 ⟨g, hg, hc⟩, hmn, rfl⟩
  · rintro ⟨c, mn, hc, hmn, rfl⟩
    obtain ⟨g, hg, hcg⟩ := (mem_groups q c).2 hc
    exact ⟨g, hg, mn, hmn, c, hcg, rfl⟩

theorem copyProg_value {dst src : Arr} (hne : dst ≠ src) (dt st doff soff : Int) (s : Mem) {c : F}
    (hc : c ∈ q.members) {mn : Int} (hmn : 0 ≤ mn ∧ mn < q.mnsize) :
    Asg.exec (copyProg q dst src dt st doff soff) s (dst, dt, c, doff + mn) = s (src, st, c, soff + mn) := by
  obtain ⟨a, ha, e, ev⟩ := exec_copies (fun k : Key => k.1 = src) (copyProg q dst src dt st doff soff)
    (by
      intro a ha
      obtain ⟨c, mn, _, _, rfl⟩ := mem_copyProg.1 ha
      exact hne)
    (by
      intro a ha s s' hs
      obtain ⟨c, mn, _, _, rfl⟩ := mem_copyProg.1 ha
      exact hs _ rfl) s (dst, dt, c, doff + mn)
    ⟨_, mem_copyProg.2 ⟨c, mn, hc, hmn, rfl⟩, rfl⟩
  rw [ev]
  obtain ⟨c', mn', _, _, rfl⟩ := mem_copyProg.1 ha
  simp only [Prod.mk.injEq] at e
  obtain ⟨-, -, e1, e2⟩ := e
  have : mn' = mn := by omega
  subst this e1
  rfl

theorem copyProg_other {dst src : Arr} (dt st doff soff : Int) (s : Mem) (k : Key)
    (h : ∀ c mn, (0 ≤ mn ∧ mn < q.mnsize) → k ≠ (dst, dt, c, doff + mn)) :
    Asg.exec (copyProg q dst src dt st doff soff) s k = s k := by
  apply Asg.exec_unwritten
  intro a ha
  obtain ⟨c, mn, _, hmn, rfl⟩ := mem_copyProg.1 ha
  exact fun e => h c mn hmn e.symm

theorem copyProg_within {dst src : Arr} {dt st doff soff : Int} {P : Key → Prop}
    (hd : ∀ c i, P (dst, dt, c, i)) (hs : ∀ c i, P (src, st, c, i)) :
    ∀ a ∈ copyProg q dst src dt st doff soff, Asg.Within P a := by
  intro a ha
  obtain ⟨c, mn, _, _, rfl⟩ := mem_copyProg.1 ha
  exact ⟨hd _ _, fun s s' e => e _ (hs _ _)⟩

theorem copyProg_ok {dst src : Arr} {dt st doff soff : Int}
    (hd : ∀ mn, (0 ≤ mn ∧ mn < q.mnsize) → q.exists? dst dt (doff + mn) = true)
    (hs : ∀ mn, (0 ≤ mn ∧ mn < q.mnsize) → q.exists? src st (soff + mn) = true) :
    ∀ a ∈ copyProg q dst src dt st doff soff, a.ok = true := by
  intro a ha
  obtain ⟨c, mn, _, hmn, rfl⟩ := mem_copyProg.1 ha
  simp [hd mn hmn, hs mn hmn]

/-! ## the time-step loop -/

theorem mem_cells {t : Int} {p : Int × Int × Int} : p ∈ cells q t ↔
    ((q.R t).nsMinF ≤ p.1 ∧ p.1 < (q.R t).nsMaxFIncludingLcfs) ∧ (0 ≤ p.2.1 ∧ p.2.1 < q.mpol) ∧
      0 ≤ p.2.2 ∧ p.2.2 ≤ q.ntor := by
  unfold cells
  simp only [List.mem_flatMap, List.mem_map, mem_irange]
  constructor
  · rintro ⟨j, hj, m, hm, n, hn, rfl⟩
    exact ⟨hj, hm, hn.1, by dsimp only; omega⟩
  · rintro ⟨hj, hm, hn, hn'⟩
    exact ⟨p.1, hj, p.2.1, hm, p.2.2, ⟨hn, by omega⟩, rfl⟩

theorem cells_nodup (t : Int) : (cells q t).Nodup := by
  unfold cells
  rw [List.nodup_flatMap]
  refine ⟨fun j _ => ?_, ?_⟩
  · rw [List.nodup_flatMap]
    refine ⟨fun m _ => ?_, ?_⟩
    · exact (irange_nodup _ _).map (fun a b h => by simpa using h)
    · refine (irange_nodup 0 q.mpol).imp ?_
      intro m m' hne
      rw [Function.onFun, List.disjoint_left]
      intro p hp hp'
      simp only [List.mem_map] at hp hp'
      obtain ⟨n, _, rfl⟩ := hp
      obtain ⟨n', _, e⟩ := hp'
      simp only [Prod.mk.injEq] at e
      exact hne e.2.1.symm
  · refine (irange_nodup _ _).imp ?_
    intro j j' hne
    rw [Function.onFun, List.disjoint_left]
    intro p hp hp'
    simp only [List.mem_flatMap, List.mem_map] at hp hp'
    obtain ⟨m, _, n, _, rfl⟩ := hp
    obtain ⟨m', _, n', _, e⟩ := hp'
    simp only [Prod.mk.injEq] at e
    exact hne e.1.symm

/-- value after a list with one assignment per array -/
theorem exec_members (l : List F) (hl : l.Nodup) (g : F → Asg Key ℝ)
    (hg : ∀ c, Asg.Within (fun k : Key => k.2.2.1 = c) (g c)) (s : Mem) (k : Key) :
    Asg.exec (l.map g) s k = if k.2.2.1 ∈ l then (g k.2.2.1).exec1 s k else s k := by
  have e : l.map g = l.flatMap (fun c => [g c]) := by
    induction l with
    | nil => rfl
    | cons a l ih => simp [ih (List.nodup_cons.1 hl).2]
  obtain ⟨h1, h2⟩ := Asg.exec_blocks (fun c => [g c]) l hl (fun c (k : Key) => k.2.2.1 = c)
    (fun t u k _ _ ht hu => ht.symm.trans hu) (fun c _ a ha => by
      rw [List.mem_singleton] at ha; rw [ha]; exact hg c) s
  rw [e]
  split
  · rename_i hm
    rw [h1 _ hm k rfl]; rfl
  · rename_i hm
    exact h2 k (fun t ht hk => hm (hk ▸ ht))

/-- the new velocity -/
noncomputable def newV (q : Setup) (s : Mem) (t jF m n : Int) (c : F) : ℝ :=
  q.velocity_scale * (q.conjugation_parameter * s (.v, t, c, q.idx_mn t jF m n) +
    q.time_step * s (.f, t, c, q.idx_mn t jF m n))

theorem cellProg_value (s : Mem) (t jF m n : Int) {c : F} (hc : c ∈ q.members) :
    Asg.exec (cellProg q t (jF, m, n)) s (.v, t, c, q.idx_mn t jF m n) = newV q s t jF m n c ∧
    Asg.exec (cellProg q t (jF, m, n)) s (.x, t, c, q.idx_mn1 t jF m n) =
      s (.x, t, c, q.idx_mn1 t jF m n) + q.time_step * newV q s t jF m n c := by
  unfold cellProg
  dsimp only
  rw [Asg.exec_append]
  have hv : ∀ c, Asg.Within (fun k : Key => k.2.2.1 = c) (vAsg q t jF m n c) := fun c =>
    ⟨rfl, fun s s' e => by unfold vAsg; dsimp only; rw [e _ rfl, e _ rfl]⟩
  have hx : ∀ c, Asg.Within (fun k : Key => k.2.2.1 = c) (xAsg q t jF m n c) := fun c =>
    ⟨rfl, fun s s' e => by unfold xAsg; dsimp only; rw [e _ rfl, e _ rfl]⟩
  rw [exec_members _ (members_nodup q) _ hx, exec_members _ (members_nodup q) _ hx, if_pos hc, if_pos hc]
  have v1 : Asg.exec (q.members.map (vAsg q t jF m n)) s (.v, t, c, q.idx_mn t jF m n) = newV q s t jF m n c := by
    rw [exec_members _ (members_nodup q) _ hv, if_pos hc]
    unfold Asg.exec1 vAsg newV
    simp
  have x1 : Asg.exec (q.members.map (vAsg q t jF m n)) s (.x, t, c, q.idx_mn1 t jF m n)
      = s (.x, t, c, q.idx_mn1 t jF m n) := by
    rw [exec_members _ (members_nodup q) _ hv, if_pos hc]
    unfold Asg.exec1 vAsg
    simp
  constructor
  · have e : (xAsg q t jF m n c).exec1 (Asg.exec (q.members.map (vAsg q t jF m n)) s) (.v, t, c, q.idx_mn t jF m n)
        = Asg.exec (q.members.map (vAsg q t jF m n)) s (.v, t, c, q.idx_mn t jF m n) := by
      unfold Asg.exec1 xAsg
      simp
    exact e.trans v1
  · have e : (xAsg q t jF m n c).exec1 (Asg.exec (q.members.map (vAsg q t jF m n)) s)
        (.x, t, c, q.idx_mn1 t jF m n)
        = Asg.exec (q.members.map (vAsg q t jF m n)) s (.x, t, c, q.idx_mn1 t jF m n)
          + q.time_step * Asg.exec (q.members.map (vAsg q t jF m n)) s (.v, t, c, q.idx_mn t jF m n) := by
      unfold Asg.exec1 xAsg
      simp
    rw [x1, v1] at e
    exact e

/-- what a cell touches -/
def footCell (q : Setup) (t : Int) (p : Int × Int × Int) (k : Key) : Prop :=
  k.2.1 = t ∧ ((k.1 = .x ∧ k.2.2.2 = q.idx_mn1 t p.1 p.2.1 p.2.2) ∨
    ((k.1 = .v ∨ k.1 = .f) ∧ k.2.2.2 = q.idx_mn t p.1 p.2.1 p.2.2))

theorem cellProg_within (t : Int) (p : Int × Int × Int) : ∀ a ∈ cellProg q t p, Asg.Within (footCell q t p) a := by
  intro a ha
  unfold cellProg at ha
  rw [List.mem_append, List.mem_map, List.mem_map] at ha
  rcases ha with ⟨c, _, rfl⟩ | ⟨c, _, rfl⟩
  · refine ⟨⟨rfl, Or.inr ⟨Or.inl rfl, rfl⟩⟩, fun s s' e => ?_⟩
    unfold vAsg
    dsimp only
    rw [e _ ⟨rfl, Or.inr ⟨Or.inl rfl, rfl⟩⟩, e _ ⟨rfl, Or.inr ⟨Or.inr rfl, rfl⟩⟩]
  · refine ⟨⟨rfl, Or.inl ⟨rfl, rfl⟩⟩, fun s s' e => ?_⟩
    unfold xAsg
    dsimp only
    rw [e _ ⟨rfl, Or.inl ⟨rfl, rfl⟩⟩, e _ ⟨rfl, Or.inr ⟨Or.inl rfl, rfl⟩⟩]

theorem timeLoop_value (s : Mem) (t : Int) {jF m n : Int} (hp : (jF, m, n) ∈ cells q t) {c : F}
    (hc : c ∈ q.members) :
    Asg.exec (timeLoop q t) s (.v, t, c, q.idx_mn t jF m n) = newV q s t jF m n c ∧
    Asg.exec (timeLoop q t) s (.x, t, c, q.idx_mn1 t jF m n) =
      s (.x, t, c, q.idx_mn1 t jF m n) + q.time_step * newV q s t jF m n c := by
  obtain ⟨h1, -⟩ := Asg.exec_blocks (cellProg q t) (cells q t) (cells_nodup t) (footCell q t)
    (by
      intro p p' k hp hp' hk hk'
      obtain ⟨-, ⟨hm, hm'⟩, hn, hn'⟩ := mem_cells.1 hp
      obtain ⟨-, ⟨km, km'⟩, kn, kn'⟩ := mem_cells.1 hp'
      obtain ⟨-, hk⟩ := hk
      obtain ⟨-, hk'⟩ := hk'
      have inj : ∀ j0, fcIdx j0 q.mpol q.ntor p.1 p.2.1 p.2.2 = fcIdx j0 q.mpol q.ntor p'.1 p'.2.1 p'.2.2 → p = p' := by
        intro j0 e
        obtain ⟨e1, e2, e3⟩ := fcIdx_inj hm hm' hn hn' km km' kn kn' e
        exact Prod.ext e1 (Prod.ext e2 e3)
      rcases hk with ⟨ha, hi⟩ | ⟨ha, hi⟩ <;> rcases hk' with ⟨ha', hi'⟩ | ⟨ha', hi'⟩
      · exact inj (q.R t).nsMinF1 (hi.symm.trans hi')
      · rw [ha] at ha'; rcases ha' with h | h <;> cases h
      · rw [ha'] at ha; rcases ha with h | h <;> cases h
      · exact inj (q.R t).nsMinF (hi.symm.trans hi'))
    (fun p _ => cellProg_within t p) s
  obtain ⟨v1, v2⟩ := cellProg_value s t jF m n hc
  exact ⟨(h1 _ hp _ ⟨rfl, Or.inr ⟨Or.inl rfl, rfl⟩⟩).trans v1, (h1 _ hp _ ⟨rfl, Or.inl ⟨rfl, rfl⟩⟩).trans v2⟩

theorem timeLoop_within (t : Int) : ∀ a ∈ timeLoop q t,
    Asg.Within (fun k : Key => k.2.1 = t ∧ (k.1 = .x ∨ k.1 = .v ∨ k.1 = .f)) a := by
  intro a ha
  unfold timeLoop at ha
  obtain ⟨p, _, hp⟩ := List.mem_flatMap.1 ha
  refine (cellProg_within t p a hp).mono ?_
  rintro k ⟨h1, ⟨h2, -⟩ | ⟨h2 | h2, -⟩⟩
  · exact ⟨h1, Or.inl h2⟩
  · exact ⟨h1, Or.inr (Or.inl h2)⟩
  · exact ⟨h1, Or.inr (Or.inr h2)⟩

end Verif.TimeStep
