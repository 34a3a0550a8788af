import Verif.Common.Outcome
import Mathlib.Algebra.BigOperators.Group.Finset.Basic
import Mathlib.Algebra.Order.Interval.Finset.Basic
import Mathlib.Data.Int.Interval
import Mathlib.Algebra.BigOperators.Intervals

/-!
# C-style loops and arrays

`irange lo hi` is the index sequence of `for (int j = lo; j < hi; ++j)`;
`forRange lo hi f s` runs the loop body `f j` on the state `s`.
Arrays are functions from the (flat) `Int` index; `upd` is an assignment.
-/
namespace Verif
open Finset

/-- The list of integers `lo, lo+1, ..., hi-1` of a C++ loop `for (j = lo; j < hi; ++j)`. -/
def irange (lo hi : Int) : List Int := (List.range (hi - lo).toNat).map (fun (k : Nat) => lo + k)

/-- `for (int j = lo; j < hi; ++j) s = f(j, s)` -/
def forRange {S : Type*} (lo hi : Int) (f : Int → S → S) (s : S) : S :=
  (irange lo hi).foldl (fun s j => f j s) s

/-- `for (int j = hi - 1; j >= lo; --j) s = f(j, s)` -/
def forRangeRev {S : Type*} (lo hi : Int) (f : Int → S → S) (s : S) : S :=
  (irange lo hi).reverse.foldl (fun s j => f j s) s

/-- loop whose body may fail -/
def forRangeM {S : Type} (lo hi : Int) (f : Int → S → Outcome S) (s : S) : Outcome S :=
  (irange lo hi).foldlM (fun s j => f j s) s

/-- array assignment `a[i] = v` -/
def upd {α : Type*} (a : Int → α) (i : Int) (v : α) : Int → α := fun j => if j = i then v else a j

@[simp] theorem upd_same {α : Type*} (a : Int → α) (i : Int) (v : α) : upd a i v i = v := by
  simp [upd]

theorem upd_ne {α : Type*} (a : Int → α) {i j : Int} (v : α) (h : j ≠ i) : upd a i v j = a j := by
  simp [upd, h]

theorem mem_irange {lo hi j : Int} : j ∈ irange lo hi ↔ lo ≤ j ∧ j < hi := by
  unfold irange
  simp only [List.mem_map, List.mem_range]
  constructor
  · rintro ⟨k, hk, rfl⟩; omega
  · rintro ⟨h1, h2⟩; exact ⟨(j - lo).toNat, by omega, by omega⟩

theorem irange_empty {lo hi : Int} (h : hi ≤ lo) : irange lo hi = [] := by
  unfold irange
  have : (hi - lo).toNat = 0 := by omega
  simp [this]

theorem irange_succ {lo hi : Int} (h : lo ≤ hi) : irange lo (hi + 1) = irange lo hi ++ [hi] := by
  unfold irange
  have : (hi + 1 - lo).toNat = (hi - lo).toNat + 1 := by omega
  rw [this, List.range_succ]
  simp
  omega

theorem irange_cons {lo hi : Int} (h : lo < hi) : irange lo hi = lo :: irange (lo + 1) hi := by
  unfold irange
  have : (hi - lo).toNat = (hi - (lo + 1)).toNat + 1 := by omega
  rw [this, List.range_succ_eq_map]
  simp only [List.map_cons, List.map_map]
  congr 1
  · simp
  · apply List.map_congr_left
    intro k _
    simp; omega

theorem irange_nodup (lo hi : Int) : (irange lo hi).Nodup := by
  unfold irange
  apply List.Nodup.map _ List.nodup_range
  intro a b h
  simp at h
  exact h

theorem irange_length (lo hi : Int) : (irange lo hi).length = (hi - lo).toNat := by
  simp [irange]

theorem irange_split {lo mid hi : Int} (h1 : lo ≤ mid) (h2 : mid ≤ hi) :
    irange lo hi = irange lo mid ++ irange mid hi := by
  have : ∀ k : Nat, irange lo (mid + k) = irange lo mid ++ irange mid (mid + k) := by
    intro k
    induction k with
    | zero => simp [irange_empty (le_refl mid)]
    | succ k ih =>
      push_cast
      rw [← add_assoc, irange_succ (by omega), irange_succ (by omega), ih, List.append_assoc]
  have h := this (hi - mid).toNat
  have e : mid + ((hi - mid).toNat : Int) = hi := by omega
  rwa [e] at h

@[simp] theorem forRange_empty {S : Type*} {lo hi : Int} (h : hi ≤ lo) (f : Int → S → S) (s : S) :
    forRange lo hi f s = s := by
  simp [forRange, irange_empty h]

theorem forRange_succ {S : Type*} {lo hi : Int} (h : lo ≤ hi) (f : Int → S → S) (s : S) :
    forRange lo (hi + 1) f s = f hi (forRange lo hi f s) := by
  simp [forRange, irange_succ h]

theorem forRange_cons {S : Type*} {lo hi : Int} (h : lo < hi) (f : Int → S → S) (s : S) :
    forRange lo hi f s = forRange (lo + 1) hi f (f lo s) := by
  simp [forRange, irange_cons h]

/-- a projection of the state that the loop body respects -/
theorem forRange_map {S T : Type*} {lo hi : Int} (f : Int → S → S) (f' : Int → T → T) (g : S → T)
    (h : ∀ j s, g (f j s) = f' j (g s)) (s : S) :
    g (forRange lo hi f s) = forRange lo hi f' (g s) := by
  unfold forRange
  generalize irange lo hi = l
  induction l generalizing s with
  | nil => rfl
  | cons x xs ih => simp only [List.foldl_cons]; rw [ih, h]

theorem forRange_congr {S : Type*} {lo hi : Int} (f f' : Int → S → S) (s : S)
    (h : ∀ j s, lo ≤ j → j < hi → f j s = f' j s) : forRange lo hi f s = forRange lo hi f' s := by
  unfold forRange
  have : ∀ l : List Int, (∀ j ∈ l, lo ≤ j ∧ j < hi) → ∀ s, l.foldl (fun s j => f j s) s =
      l.foldl (fun s j => f' j s) s := by
    intro l
    induction l with
    | nil => intro _ s; rfl
    | cons x xs ih =>
      intro hl s
      simp only [List.foldl_cons]
      rw [h x s (hl x (by simp)).1 (hl x (by simp)).2]
      exact ih (fun j hj => hl j (by simp [hj])) _
  exact this _ (fun j hj => mem_irange.1 hj) s

/-- loop-invariant rule -/
theorem forRange_inv {S : Type*} {lo hi : Int} (h : lo ≤ hi) (f : Int → S → S) (s : S)
    (P : Int → S → Prop) (h0 : P lo s)
    (hs : ∀ j s, lo ≤ j → j < hi → P j s → P (j + 1) (f j s)) : P hi (forRange lo hi f s) := by
  have key : ∀ k : Nat, lo + k ≤ hi → P (lo + k) (forRange lo (lo + k) f s) := by
    intro k
    induction k with
    | zero => intro _; simpa [irange_empty, forRange] using h0
    | succ k ih =>
      intro hk
      push_cast at hk ⊢
      rw [← add_assoc, forRange_succ (by omega)]
      exact hs _ _ (by omega) (by omega) (ih (by omega))
  have := key (hi - lo).toNat (by omega)
  have e : lo + ((hi - lo).toNat : Int) = hi := by omega
  rwa [e] at this

/-- loop-invariant rule for downward loops: `P j` holds when the loop has processed all indices `≥ j` -/
theorem forRangeRev_inv {S : Type*} {lo hi : Int} (h : lo ≤ hi) (f : Int → S → S) (s : S)
    (P : Int → S → Prop) (h0 : P hi s)
    (hs : ∀ j s, lo ≤ j → j < hi → P (j + 1) s → P j (f j s)) : P lo (forRangeRev lo hi f s) := by
  have key : ∀ (k : Nat) (hi : Int) (s : S), hi = lo + k → P hi s →
      (∀ j s, lo ≤ j → j < hi → P (j + 1) s → P j (f j s)) → P lo (forRangeRev lo hi f s) := by
    intro k
    induction k with
    | zero =>
      intro hi s hk hp _
      have : hi = lo := by omega
      subst this
      simpa [forRangeRev, irange_empty] using hp
    | succ k ih =>
      intro hi s hk hp hs
      have e : hi = (hi - 1) + 1 := by omega
      unfold forRangeRev
      rw [e, irange_succ (by omega)]
      simp only [List.reverse_append, List.reverse_cons, List.reverse_nil, List.nil_append,
        List.cons_append, List.foldl_cons]
      apply ih (hi - 1) _ (by push_cast at hk; omega)
      · exact hs (hi - 1) s (by push_cast at hk; omega) (by omega) (by rw [← e]; exact hp)
      · intro j s h1 h2 h3; exact hs j s h1 (by omega) h3
  exact key (hi - lo).toNat hi s (by omega) h0 hs

/-- loop-invariant rule for loops that may fail: if every body run from the invariant succeeds and
    preserves it, the loop succeeds -/
theorem forRangeM_inv {S : Type} {lo hi : Int} (h : lo ≤ hi) (f : Int → S → Outcome S) (s : S)
    (P : Int → S → Prop) (h0 : P lo s)
    (hs : ∀ j s, lo ≤ j → j < hi → P j s → ∃ s', f j s = .ok s' ∧ P (j + 1) s') :
    ∃ s', forRangeM lo hi f s = .ok s' ∧ P hi s' := by
  have key : ∀ (k : Nat) (lo : Int) (s : S), hi = lo + k → P lo s →
      (∀ j s, lo ≤ j → j < hi → P j s → ∃ s', f j s = .ok s' ∧ P (j + 1) s') →
      ∃ s', forRangeM lo hi f s = .ok s' ∧ P hi s' := by
    intro k
    induction k with
    | zero =>
      intro lo s hk hp _
      have : hi = lo := by omega
      subst this
      exact ⟨s, by simp [forRangeM, irange_empty], hp⟩
    | succ k ih =>
      intro lo s hk hp hs
      push_cast at hk
      obtain ⟨s1, e1, p1⟩ := hs lo s (le_refl _) (by omega) hp
      obtain ⟨s2, e2, p2⟩ := ih (lo + 1) s1 (by omega) p1
        (fun j s a b c => hs j s (by omega) b c)
      refine ⟨s2, ?_, p2⟩
      unfold forRangeM at *
      rw [irange_cons (by omega), List.foldlM_cons]
      simp only [e1, Outcome.bind_ok]
      exact e2
  exact key (hi - lo).toNat lo s (by omega) h0 hs

theorem irange_sum (lo hi : Int) {M : Type*} [AddCommMonoid M] (f : Int → M) :
    ((irange lo hi).map f).sum = ∑ j ∈ Finset.Ico lo hi, f j := by
  unfold irange
  induction hk : (hi - lo).toNat generalizing hi with
  | zero =>
    have : Finset.Ico lo hi = ∅ := by
      apply Finset.Ico_eq_empty; omega
    simp [this]
  | succ k ih =>
    have h1 := ih (hi - 1) (by omega)
    have h2 : Finset.Ico lo hi = insert (hi - 1) (Finset.Ico lo (hi - 1)) := by
      ext j; simp only [Finset.mem_Ico, Finset.mem_insert]; omega
    rw [h2, Finset.sum_insert (by simp), ← h1, List.range_succ]
    simp only [List.map_append, List.map_map, List.map_cons, List.map_nil, List.sum_append, List.sum_cons, List.sum_nil, add_zero]
    have e : lo + (k:Int) = hi - 1 := by omega
    rw [e, add_comm]

theorem sum_Ico_int_succ {lo hi : Int} (h : lo ≤ hi) {M : Type*} [AddCommMonoid M] (f : Int → M) :
    ∑ j ∈ Finset.Ico lo (hi + 1), f j = (∑ j ∈ Finset.Ico lo hi, f j) + f hi := by
  have h2 : Finset.Ico lo (hi + 1) = insert hi (Finset.Ico lo hi) := by
    ext j; simp only [Finset.mem_Ico, Finset.mem_insert]; omega
  rw [h2, Finset.sum_insert (by simp), add_comm]

theorem sum_Ico_int_first {lo hi : Int} (h : lo < hi) {M : Type*} [AddCommMonoid M] (f : Int → M) :
    ∑ j ∈ Finset.Ico lo hi, f j = f lo + ∑ j ∈ Finset.Ico (lo + 1) hi, f j := by
  have h2 : Finset.Ico lo hi = insert lo (Finset.Ico (lo + 1) hi) := by
    ext j; simp only [Finset.mem_Ico, Finset.mem_insert]; omega
  rw [h2, Finset.sum_insert (by simp)]

/-- an accumulation loop `for j in [lo,hi): acc += f j` is the finite sum -/
theorem forRange_add {lo hi : Int} {M : Type*} [AddCommMonoid M] (f : Int → M) (a : M) :
    forRange lo hi (fun j acc => acc + f j) a = a + ∑ j ∈ Finset.Ico lo hi, f j := by
  rw [← irange_sum]
  unfold forRange
  generalize irange lo hi = l
  induction l generalizing a with
  | nil => simp
  | cons x xs ih => simp [ih, add_assoc]

end Verif
