import Verif.Common.Loop
import Mathlib.Logic.Function.Basic
import Mathlib.Data.List.Basic

/-!
# Programs made of assignments, and their interleavings

A program of a thread between two barriers is a list of assignments. `Inter p l` says that `l` is an
interleaving of the programs `p t`. If the programs touch pairwise disjoint parts of the memory, every
interleaving gives each thread the result it would get alone (`Inter.exec_eq`).
-/
namespace Verif

/-- an assignment `key := val(memory)`; `ok` says that all array positions it uses exist -/
structure Asg (K α : Type) where
  ok : Bool
  key : K
  val : (K → α) → α

namespace Asg
variable {K α T : Type} [DecidableEq K] [DecidableEq T]

/-- effect of one assignment -/
def exec1 (a : Asg K α) (s : K → α) : K → α := fun k => if k = a.key then a.val s else s k

/-- effect of a list of assignments -/
def exec (l : List (Asg K α)) (s : K → α) : K → α := l.foldl (fun s a => a.exec1 s) s

/-- an execution that stops with `ub` at the first assignment that leaves an array -/
def run (l : List (Asg K α)) (s : K → α) : Outcome (K → α) :=
  l.foldlM (fun s a => if a.ok then .ok (a.exec1 s) else .ub "array index out of bounds") s

theorem run_ok (l : List (Asg K α)) (s : K → α) (h : ∀ a ∈ l, a.ok = true) : run l s = .ok (exec l s) := by
  induction l generalizing s with
  | nil => rfl
  | cons a l ih =>
    unfold run exec
    rw [List.foldlM_cons, if_pos (h a (by simp)), Outcome.bind_ok]
    exact ih _ (fun b hb => h b (by simp [hb]))

theorem exec_nil (s : K → α) : exec ([] : List (Asg K α)) s = s := rfl
theorem exec_cons (a : Asg K α) (l : List (Asg K α)) (s : K → α) : exec (a :: l) s = exec l (a.exec1 s) := rfl
theorem exec_append (l l' : List (Asg K α)) (s : K → α) : exec (l ++ l') s = exec l' (exec l s) := by
  unfold exec; rw [List.foldl_append]

/-- the assignment reads and writes only inside `P` -/
def Within (P : K → Prop) (a : Asg K α) : Prop :=
  P a.key ∧ ∀ s s' : K → α, (∀ k, P k → s k = s' k) → a.val s = a.val s'

theorem Within.mono {P Q : K → Prop} {a : Asg K α} (h : Within P a) (hPQ : ∀ k, P k → Q k) : Within Q a :=
  ⟨hPQ _ h.1, fun s s' e => h.2 s s' (fun k hk => e k (hPQ k hk))⟩

theorem exec1_inside {P : K → Prop} {a : Asg K α} (h : Within P a) {s s' : K → α} (e : ∀ k, P k → s k = s' k) :
    ∀ k, P k → a.exec1 s k = a.exec1 s' k := by
  intro k hk
  unfold exec1
  split
  · exact h.2 s s' e
  · exact e k hk

theorem exec_inside {P : K → Prop} (l : List (Asg K α)) (h : ∀ a ∈ l, Within P a) {s s' : K → α}
    (e : ∀ k, P k → s k = s' k) : ∀ k, P k → exec l s k = exec l s' k := by
  induction l generalizing s s' with
  | nil => exact e
  | cons a l ih =>
    rw [exec_cons, exec_cons]
    exact ih (fun b hb => h b (by simp [hb])) (exec1_inside (h a (by simp)) e)

theorem exec1_outside {P : K → Prop} {a : Asg K α} (h : Within P a) (s : K → α) {k : K} (hk : ¬ P k) :
    a.exec1 s k = s k := by
  unfold exec1
  rw [if_neg (fun e : k = a.key => hk (e ▸ h.1))]

theorem exec_outside {P : K → Prop} (l : List (Asg K α)) (h : ∀ a ∈ l, Within P a) (s : K → α) {k : K}
    (hk : ¬ P k) : exec l s k = s k := by
  induction l generalizing s with
  | nil => rfl
  | cons a l ih =>
    rw [exec_cons, ih (fun b hb => h b (by simp [hb])), exec1_outside (h a (by simp)) s hk]

/-- keys that are never written keep their value -/
theorem exec_unwritten (l : List (Asg K α)) (s : K → α) {k : K} (h : ∀ a ∈ l, a.key ≠ k) :
    exec l s k = s k := by
  induction l generalizing s with
  | nil => rfl
  | cons a l ih =>
    rw [exec_cons, ih _ (fun b hb => h b (by simp [hb]))]
    unfold exec1
    rw [if_neg (fun e => h a (by simp) e.symm)]

/-- `l` is an interleaving of the programs `p t` -/
inductive Inter : (T → List (Asg K α)) → List (Asg K α) → Prop where
  | done (p) : (∀ t, p t = []) → Inter p []
  | step (p) (t : T) (a : Asg K α) (rest l : List (Asg K α)) : p t = a :: rest →
      Inter (fun u => if u = t then rest else p u) l → Inter p (a :: l)

theorem Inter.mem {p : T → List (Asg K α)} {l : List (Asg K α)} (h : Inter p l) :
    ∀ a ∈ l, ∃ t, a ∈ p t := by
  induction h with
  | done p hp => simp
  | step p t a rest l hp _ ih =>
    intro b hb
    rcases List.mem_cons.1 hb with rfl | hb
    · exact ⟨t, by rw [hp]; simp⟩
    · obtain ⟨u, hu⟩ := ih b hb
      beta_reduce at hu
      by_cases hut : u = t
      · subst hut
        rw [if_pos rfl] at hu
        exact ⟨u, by rw [hp]; simp [hu]⟩
      · rw [if_neg hut] at hu
        exact ⟨u, hu⟩

/-- **Interleaving does not matter**: if the programs touch disjoint parts of the memory, then after any
    interleaving the part of thread `t` is as if it had run alone, and all else is unchanged. -/
theorem Inter.exec_eq {p : T → List (Asg K α)} {l : List (Asg K α)} (h : Inter p l) (Foot : T → K → Prop)
    (hdis : ∀ t u k, Foot t k → Foot u k → t = u) (hw : ∀ t, ∀ a ∈ p t, Within (Foot t) a) (s : K → α) :
    (∀ t k, Foot t k → exec l s k = exec (p t) s k) ∧
      (∀ k, (∀ t, ¬ Foot t k) → exec l s k = s k) := by
  induction h generalizing s with
  | done p hp =>
    exact ⟨fun t k _ => by rw [hp t], fun _ _ => rfl⟩
  | step p t a rest l hp _ ih =>
    have hwa : Within (Foot t) a := hw t a (by rw [hp]; simp)
    obtain ⟨i1, i2⟩ := ih (by
      intro u b hb
      beta_reduce at hb
      by_cases hu : u = t
      · subst hu
        rw [if_pos rfl] at hb
        exact hw u b (by rw [hp]; simp [hb])
      · rw [if_neg hu] at hb
        exact hw u b hb) (a.exec1 s)
    constructor
    · intro u k hk
      rw [exec_cons, i1 u k hk]
      beta_reduce
      by_cases hu : u = t
      · subst hu
        rw [if_pos rfl, hp, exec_cons]
      · rw [if_neg hu]
        refine exec_inside (P := Foot u) _ (hw u) (fun k' hk' => ?_) k hk
        exact exec1_outside hwa s (fun h' => hu (hdis u t k' hk' h'))
    · intro k hk
      rw [exec_cons, i2 k hk]
      exact exec1_outside hwa s (hk t)

/-- running the programs one after the other is an interleaving -/
theorem Inter.sequential (p : T → List (Asg K α)) (ts : List T) (hn : ts.Nodup) (h : ∀ t, t ∉ ts → p t = []) :
    Inter p (ts.flatMap p) := by
  induction ts generalizing p with
  | nil => exact Inter.done p (fun t => h t (by simp))
  | cons t ts ih =>
    rw [List.flatMap_cons]
    have main : ∀ l : List (Asg K α), Inter (fun u => if u = t then l else p u) (l ++ ts.flatMap p) := by
      intro l
      induction l with
      | nil =>
        have := ih (fun u => if u = t then [] else p u) (List.nodup_cons.1 hn).2 (by
          intro u hu
          by_cases hut : u = t
          · rw [if_pos hut]
          · rw [if_neg hut]; exact h u (by simp [hut, hu]))
        have e : ts.flatMap (fun u => if u = t then [] else p u) = ts.flatMap p := by
          apply List.flatMap_congr
          intro u hu
          rw [if_neg (fun e : u = t => (List.nodup_cons.1 hn).1 (e ▸ hu))]
        rw [e] at this
        exact this
      | cons a l ihl =>
        refine Inter.step _ t a l _ (by simp) ?_
        have e : (fun u => if u = t then l else (if u = t then a :: l else p u))
            = (fun u => if u = t then l else p u) := by
          funext u; by_cases hu : u = t <;> simp [hu]
        rw [e]
        exact ihl
    have := main (p t)
    have e : (fun u => if u = t then p t else p u) = p := by
      funext u; by_cases hu : u = t
      · subst hu; simp
      · simp [hu]
    rwa [e] at this

/-- a sequence of blocks that touch disjoint parts: the part of a block is as if it had run alone -/
theorem exec_blocks (p : T → List (Asg K α)) (ts : List T) (hn : ts.Nodup) (Foot : T → K → Prop)
    (hdis : ∀ t u k, t ∈ ts → u ∈ ts → Foot t k → Foot u k → t = u)
    (hw : ∀ t ∈ ts, ∀ a ∈ p t, Within (Foot t) a) (s : K → α) :
    (∀ t ∈ ts, ∀ k, Foot t k → exec (ts.flatMap p) s k = exec (p t) s k) ∧
      (∀ k, (∀ t ∈ ts, ¬ Foot t k) → exec (ts.flatMap p) s k = s k) := by
  have hseq := Inter.sequential (fun t => if t ∈ ts then p t else []) ts hn (fun t ht => by rw [if_neg ht])
  have e : ts.flatMap (fun t => if t ∈ ts then p t else []) = ts.flatMap p := by
    apply List.flatMap_congr
    intro t ht
    rw [if_pos ht]
  rw [e] at hseq
  obtain ⟨h1, h2⟩ := hseq.exec_eq (fun t k => t ∈ ts ∧ Foot t k)
    (fun t u k ht hu => hdis t u k ht.1 hu.1 ht.2 hu.2) (by
      intro t a ha
      beta_reduce at ha
      by_cases ht : t ∈ ts
      · rw [if_pos ht] at ha
        exact (hw t ht a ha).mono (fun k hk => ⟨ht, hk⟩)
      · rw [if_neg ht] at ha
        cases ha) s
  constructor
  · intro t ht k hk
    have := h1 t k ⟨ht, hk⟩
    beta_reduce at this
    rw [if_pos ht] at this
    exact this
  · intro k hk
    exact h2 k (fun t ht => hk t ht.1 ht.2)

end Asg
end Verif
