import Verif.AxisGuess.Model
import Verif.Common.Assign
import Mathlib.Algebra.Order.Field.Basic
import Mathlib.Tactic.Linarith

namespace Verif.AxisGuess
open Verif

section search
variable {K : Type} [Field K] [LinearOrder K]

theorem minElement_spec (n : Int) (hn : 1 ≤ n) (v : Int → K) :
    (∃ l, 0 ≤ l ∧ l < n ∧ minElement n v = v l) ∧ ∀ l, 0 ≤ l → l < n → minElement n v ≤ v l := by
  unfold minElement
  refine forRange_inv (lo := 1) (hi := n) hn _ (v 0)
    (fun (j : Int) (b : K) => (∃ l, 0 ≤ l ∧ l < j ∧ b = v l) ∧ ∀ l, 0 ≤ l → l < j → b ≤ v l) ?_ ?_
  · exact ⟨⟨0, by omega, by omega, rfl⟩, fun l h1 h2 => by
      have : l = 0 := by omega
      subst this; exact le_refl _⟩
  · rintro j b h1 h2 ⟨⟨l, a1, a2, a3⟩, a4⟩
    by_cases h : v j < b
    · rw [if_pos h]
      refine ⟨⟨j, by omega, by omega, rfl⟩, fun l' b1 b2 => ?_⟩
      by_cases e : l' = j
      · subst e; exact le_refl _
      · exact h.le.trans (a4 l' b1 (by omega))
    · rw [if_neg h]
      refine ⟨⟨l, a1, by omega, a3⟩, fun l' b1 b2 => ?_⟩
      by_cases e : l' = j
      · subst e; exact not_lt.1 h
      · exact a4 l' b1 (by omega)

theorem maxElement_spec (n : Int) (hn : 1 ≤ n) (v : Int → K) :
    (∃ l, 0 ≤ l ∧ l < n ∧ maxElement n v = v l) ∧ ∀ l, 0 ≤ l → l < n → v l ≤ maxElement n v := by
  unfold maxElement
  refine forRange_inv (lo := 1) (hi := n) hn _ (v 0)
    (fun (j : Int) (b : K) => (∃ l, 0 ≤ l ∧ l < j ∧ b = v l) ∧ ∀ l, 0 ≤ l → l < j → v l ≤ b) ?_ ?_
  · exact ⟨⟨0, by omega, by omega, rfl⟩, fun l h1 h2 => by
      have : l = 0 := by omega
      subst this; exact le_refl _⟩
  · rintro j b h1 h2 ⟨⟨l, a1, a2, a3⟩, a4⟩
    by_cases h : b < v j
    · rw [if_pos h]
      refine ⟨⟨j, by omega, by omega, rfl⟩, fun l' b1 b2 => ?_⟩
      by_cases e : l' = j
      · subst e; exact le_refl _
      · exact (a4 l' b1 (by omega)).trans h.le
    · rw [if_neg h]
      refine ⟨⟨l, a1, by omega, a3⟩, fun l' b1 b2 => ?_⟩
      by_cases e : l' = j
      · subst e; exact not_lt.1 h
      · exact a4 l' b1 (by omega)

variable (p : Plane K)

/-- the grid points in the order in which they are visited -/
def Plane.points : List (K × K) :=
  if p.zeroZ then (irange 0 kNumberOfGridPoints).map fun i => (p.rGrid i, 0)
  else (irange 0 kNumberOfGridPoints).flatMap fun j =>
    (irange 0 kNumberOfGridPoints).map fun i => (p.rGrid i, p.zGrid j)

theorem row_eq (z : K) (b : Best K) :
    p.row z b = ((irange 0 kNumberOfGridPoints).map fun i => (p.rGrid i, z)).foldl
      (fun b x => p.visit x.1 x.2 b) b := by
  unfold Plane.row forRange
  rw [List.foldl_map]

theorem search_eq : p.search = p.points.foldl (fun b x => p.visit x.1 x.2 b) p.start := by
  unfold Plane.search Plane.points
  split
  · exact row_eq p 0 p.start
  · have : ∀ (l : List Int) (b : Best K), l.foldl (fun b j => p.row (p.zGrid j) b) b =
        (l.flatMap fun j => (irange 0 kNumberOfGridPoints).map fun i => (p.rGrid i, p.zGrid j)).foldl
          (fun b x => p.visit x.1 x.2 b) b := by
      intro l
      induction l with
      | nil => intro b; rfl
      | cons j l ih =>
        intro b
        rw [List.foldl_cons, List.flatMap_cons, List.foldl_append, ih, row_eq]
    exact this _ _

/-- what holds after the points of a list have been visited -/
structure Inv (pts : List (K × K)) (b : Best K) : Prop where
  ub : ∀ x ∈ pts, p.minTau x.1 x.2 ≤ b.min_tau
  pos : (b.min_tau = 0 ∧ b.r = p.start.r ∧
      (b.z = p.start.z ∨ ∃ x ∈ pts, p.minTau x.1 x.2 = 0 ∧ b.z = x.2)) ∨
    (0 < b.min_tau ∧ ∃ x ∈ pts, ∃ y ∈ pts, p.minTau x.1 x.2 = b.min_tau ∧ p.minTau y.1 y.2 = b.min_tau ∧
      b.r = x.1 ∧ b.z = y.2)

theorem inv_visit {pts : List (K × K)} {b : Best K} (h : Inv p pts b) (x : K × K) :
    Inv p (pts ++ [x]) (p.visit x.1 x.2 b) := by
  have hb : 0 ≤ b.min_tau := by
    rcases h.pos with ⟨e, -⟩ | ⟨e, -⟩
    · rw [e]
    · exact e.le
  unfold Plane.visit
  dsimp only
  by_cases h1 : p.minTau x.1 x.2 > b.min_tau
  · rw [if_pos h1]
    refine ⟨fun y hy => ?_, Or.inr ⟨lt_of_le_of_lt hb h1, x, by simp, x, by simp, rfl, rfl, rfl, rfl⟩⟩
    rcases List.mem_append.1 hy with hy | hy
    · exact (h.ub y hy).trans h1.le
    · rw [List.mem_singleton] at hy; rw [hy]
  · have hle := not_lt.1 h1
    rw [if_neg h1]
    have ub' : ∀ y ∈ pts ++ [x], p.minTau y.1 y.2 ≤ b.min_tau := by
      intro y hy
      rcases List.mem_append.1 hy with hy | hy
      · exact h.ub y hy
      · rw [List.mem_singleton] at hy; rw [hy]; exact hle
    have same : Inv p (pts ++ [x]) b := by
      refine ⟨ub', ?_⟩
      rcases h.pos with ⟨e1, e2, e3⟩ | ⟨e1, u, hu, v, hv, e2⟩
      · refine Or.inl ⟨e1, e2, ?_⟩
        rcases e3 with e3 | ⟨y, hy, e3⟩
        · exact Or.inl e3
        · exact Or.inr ⟨y, by simp [hy], e3⟩
      · exact Or.inr ⟨e1, u, by simp [hu], v, by simp [hv], e2⟩
    by_cases h2 : p.minTau x.1 x.2 = b.min_tau
    · rw [if_pos h2]
      by_cases h3 : |b.z| > |x.2|
      · rw [if_pos h3]
        refine ⟨ub', ?_⟩
        rcases h.pos with ⟨e1, e2, e3⟩ | ⟨e1, u, hu, v, hv, e2, e3, e4, e5⟩
        · exact Or.inl ⟨e1, e2, Or.inr ⟨x, by simp, h2.trans e1, rfl⟩⟩
        · exact Or.inr ⟨e1, u, by simp [hu], x, by simp, e2, h2, e4, rfl⟩
      · rw [if_neg h3]; exact same
    · rw [if_neg h2]; exact same

theorem inv_search : Inv p p.points p.search := by
  rw [search_eq]
  have : ∀ (l pts : List (K × K)) (b : Best K), Inv p pts b →
      Inv p (pts ++ l) (l.foldl (fun b x => p.visit x.1 x.2 b) b) := by
    intro l
    induction l with
    | nil => intro pts b h; simpa using h
    | cons x l ih =>
      intro pts b h
      have := ih (pts ++ [x]) _ (inv_visit p h x)
      simpa using this
  have h := this p.points [] p.start ⟨by simp, Or.inl ⟨rfl, rfl, Or.inl rfl⟩⟩
  simpa using h

end search
end Verif.AxisGuess
