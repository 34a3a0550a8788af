import Verif.Common.Lawful
import Verif.Common.Loop

/-!
# Programs that assign entries of a store

`Assigns I P V f`: started in a store satisfying `I`, the program `f` ends normally in a store that
satisfies `I`; every entry in `P` then holds a value allowed by `V`, every other entry is unchanged.
-/
namespace Verif

def Assigns {K α : Type} (I : (K → α) → Prop) (P : K → Prop) (V : K → α → Prop)
    (f : (K → α) → Outcome (K → α)) : Prop :=
  ∀ s, I s → ∃ s', f s = .ok s' ∧ I s' ∧ (∀ k, P k → V k (s' k)) ∧ (∀ k, ¬ P k → s' k = s k)

namespace Assigns
variable {K α : Type} {I : (K → α) → Prop} {V : K → α → Prop}

theorem skip {P : K → Prop} (hP : ∀ k, ¬ P k) : Assigns I P V (fun s => .ok s) :=
  fun s hs => ⟨s, rfl, hs, fun k h => absurd h (hP k), fun _ _ => rfl⟩

theorem mono {P P' : K → Prop} {f : (K → α) → Outcome (K → α)} (h : Assigns I P V f)
    (hP : ∀ k, P k ↔ P' k) : Assigns I P' V f := by
  intro s hs
  obtain ⟨s', h1, h2, h3, h4⟩ := h s hs
  exact ⟨s', h1, h2, fun k hk => h3 k ((hP k).2 hk), fun k hk => h4 k (fun h => hk ((hP k).1 h))⟩

theorem seq {P Q : K → Prop} {f g : (K → α) → Outcome (K → α)} (hf : Assigns I P V f)
    (hg : Assigns I Q V g) : Assigns I (fun k => P k ∨ Q k) V (fun s => do g (← f s)) := by
  classical
  intro s hs
  obtain ⟨s1, f1, f2, f3, f4⟩ := hf s hs
  obtain ⟨s2, g1, g2, g3, g4⟩ := hg s1 f2
  refine ⟨s2, by beta_reduce; rw [f1]; exact g1, g2, ?_, ?_⟩
  · intro k hk
    by_cases hq : Q k
    · exact g3 k hq
    · rw [g4 k hq]; exact f3 k (hk.resolve_right hq)
  · intro k hk
    rw [g4 k (fun h => hk (.inr h)), f4 k (fun h => hk (.inl h))]

theorem list {β : Type} (l : List β) {P : β → K → Prop} {f : β → (K → α) → Outcome (K → α)}
    (h : ∀ b ∈ l, Assigns I (P b) V (f b)) :
    Assigns I (fun k => ∃ b ∈ l, P b k) V (fun s => l.foldlM (fun s b => f b s) s) := by
  induction l with
  | nil => exact skip (by simp)
  | cons a l ih =>
    have := seq (h a (by simp)) (ih (fun b hb => h b (List.mem_cons_of_mem _ hb)))
    intro s hs
    obtain ⟨s', h1, h2, h3, h4⟩ := this s hs
    refine ⟨s', ?_, h2, ?_, ?_⟩
    · rw [← h1]; beta_reduce; rw [List.foldlM_cons]
    · intro k hk; exact h3 k (by simpa using hk)
    · intro k hk; exact h4 k (by simpa using hk)

theorem loop {lo hi : Int} {P : Int → K → Prop} {f : Int → (K → α) → Outcome (K → α)}
    (h : ∀ j, lo ≤ j → j < hi → Assigns I (P j) V (f j)) :
    Assigns I (fun k => ∃ j, (lo ≤ j ∧ j < hi) ∧ P j k) V (fun s => forRangeM lo hi f s) := by
  refine (list (irange lo hi) (P := P) (f := f) (fun j hj => ?_)).mono (fun k => ?_)
  · rw [mem_irange] at hj; exact h j hj.1 hj.2
  · simp only [mem_irange]

theorem ite {c : Prop} [Decidable c] {P : K → Prop} {f : (K → α) → Outcome (K → α)}
    (h : c → Assigns I P V f) :
    Assigns I (fun k => c ∧ P k) V (fun s => if c then f s else .ok s) := by
  by_cases hc : c
  · simp only [hc, if_true, true_and]; exact h hc
  · simp only [hc, if_false, false_and]; exact skip (by simp)

end Assigns
end Verif
