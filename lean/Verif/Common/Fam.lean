import Verif.Common.FlatSum

/-!
# Families of arrays

A group of arrays of the same shape (`rcc`, `rss`, ..., one per name `c : C`) is a function
`C → Int → α`; `put` is the assignment `c[i] = v`.
-/
namespace Verif
open Finset

/-- assignment `c[i] = v` in a family of arrays -/
def put {C α : Type} [DecidableEq C] (s : C → Int → α) (c : C) (i : Int) (v : α) : C → Int → α :=
  fun c' j => if c' = c ∧ j = i then v else s c' j

/-- `c[i] += v` -/
def addTo {C α : Type} [DecidableEq C] [Add α] (s : C → Int → α) (c : C) (i : Int) (v : α) :
    C → Int → α := put s c i (s c i + v)

@[simp] theorem put_self {C α : Type} [DecidableEq C] (s : C → Int → α) (c : C) (i : Int) (v : α) :
    put s c i v c i = v := by simp [put]

theorem put_apply {C α : Type} [DecidableEq C] (s : C → Int → α) (c c' : C) (i j : Int) (v : α) :
    put s c i v c' j = if c' = c ∧ j = i then v else s c' j := rfl

theorem addTo_apply {C α : Type} [DecidableEq C] [AddMonoid α] (s : C → Int → α) (c c' : C) (i j : Int)
    (v : α) : addTo s c i v c' j = s c' j + if c' = c ∧ j = i then v else 0 := by
  unfold addTo put
  split
  · rename_i h; rw [h.1, h.2]
  · simp

/-- a loop that acts on every element separately -/
theorem forRange_apply {C α : Type} {lo hi : Int} (f : Int → (C → Int → α) → C → Int → α) (c : C)
    (i : Int) (h : Int → α → α) (hf : ∀ j s, f j s c i = h j (s c i)) (s : C → Int → α) :
    forRange lo hi f s c i = forRange lo hi h (s c i) :=
  forRange_map f h (fun s => s c i) hf s

/-- a loop that adds a given amount to every element in every pass -/
theorem forRange_addAll {C α : Type} [AddCommMonoid α] {lo hi : Int}
    (f : Int → (C → Int → α) → C → Int → α) (g : Int → C → Int → α)
    (hf : ∀ j s c i, lo ≤ j → j < hi → f j s c i = s c i + g j c i) (s : C → Int → α) (c : C) (i : Int) :
    forRange lo hi f s c i = s c i + ∑ j ∈ Ico lo hi, g j c i := by
  rw [← forRange_add]
  have := forRange_congr (lo := lo) (hi := hi) f (fun j s c i => s c i + g j c i) s
    (fun j s h1 h2 => by funext c i; exact hf j s c i h1 h2)
  rw [this]
  exact forRange_apply _ c i (fun j acc => acc + g j c i) (fun j s => rfl) s

/-- a loop in which only pass `j0` does something -/
theorem forRange_only {S : Type} {lo hi j0 : Int} (h0 : lo ≤ j0) (h1 : j0 < hi) (f : Int → S → S)
    (hf : ∀ j s, lo ≤ j → j < hi → j ≠ j0 → f j s = s) (s : S) : forRange lo hi f s = f j0 s := by
  have := forRange_inv (lo := lo) (hi := hi) (by omega) f s
    (fun (j : Int) (t : S) => t = if j ≤ j0 then s else f j0 s) (by simp [h0]) (by
      intro j t hj hj' ih
      by_cases e : j = j0
      · subst e; simp at ih; subst ih; simp
      · rw [hf j t hj hj' e, ih]
        by_cases hle : j ≤ j0
        · have : j + 1 ≤ j0 := by omega
          simp [hle, this]
        · have : ¬ j + 1 ≤ j0 := by omega
          simp [hle, this])
  rw [this]; simp; omega

/-- a loop in which no pass does anything -/
theorem forRange_none {S : Type} {lo hi : Int} (f : Int → S → S)
    (hf : ∀ j s, lo ≤ j → j < hi → f j s = s) (s : S) : forRange lo hi f s = s := by
  rcases le_total hi lo with h | h
  · exact forRange_empty h f s
  · exact forRange_inv (lo := lo) (hi := hi) h f s (fun (_ : Int) (t : S) => t = s) rfl (by
      intro j t hj hj' ih; rw [hf j t hj hj', ih])

/-- the position `m*b + n` determines `m` and `n` -/
theorem flat_inj {b m n m' n' : Int} (hn : 0 ≤ n) (hn' : n < b) (hk : 0 ≤ n') (hk' : n' < b)
    (h : m * b + n = m' * b + n') : m = m' ∧ n = n' := by
  have hb : 0 < b := by omega
  have e1 : (m * b + n) / b = m := by
    rw [add_comm, Int.add_mul_ediv_right _ _ hb.ne', Int.ediv_eq_zero_of_lt hn hn', zero_add]
  have e2 : (m' * b + n') / b = m' := by
    rw [add_comm, Int.add_mul_ediv_right _ _ hb.ne', Int.ediv_eq_zero_of_lt hk hk', zero_add]
  have : m = m' := by rw [← e1, ← e2, h]
  subst this
  exact ⟨rfl, by omega⟩

/-- position of mode `(m, n)` of surface `j` in a state vector starting at surface `j0` -/
def fcIdx (j0 mpol ntor j m n : Int) : Int := ((j - j0) * mpol + m) * (ntor + 1) + n

theorem fcIdx_inj {j0 mpol ntor j m n j' m' n' : Int} (hm : 0 ≤ m) (hm' : m < mpol) (hn : 0 ≤ n)
    (hn' : n ≤ ntor) (km : 0 ≤ m') (km' : m' < mpol) (kn : 0 ≤ n') (kn' : n' ≤ ntor)
    (h : fcIdx j0 mpol ntor j m n = fcIdx j0 mpol ntor j' m' n') : j = j' ∧ m = m' ∧ n = n' := by
  unfold fcIdx at h
  obtain ⟨h1, h2⟩ := flat_inj hn (by omega) kn (by omega) h
  obtain ⟨h3, h4⟩ := flat_inj hm hm' km km' h1
  exact ⟨by omega, h4, h2⟩

/-- Loop over surfaces and modes whose body works on the coefficients of one surface and mode. -/
theorem grid3 {C α : Type} {lo hi j0 mpol ntor mlo mhi nlo nhi : Int}
    (hmlo : 0 ≤ mlo) (hmhi : mhi ≤ mpol) (hnlo : 0 ≤ nlo) (hnhi : nhi ≤ ntor + 1)
    (body : Int → Int → Int → (C → Int → α) → C → Int → α)
    (h : Int → Int → Int → (C → α) → C → α)
    (hb : ∀ j m n s i, (fun c => body j m n s c i)
      = if i = fcIdx j0 mpol ntor j m n then h j m n (fun c => s c i) else fun c => s c i)
    (s : C → Int → α) (j m n : Int) (hm : 0 ≤ m) (hm' : m < mpol) (hn : 0 ≤ n) (hn' : n ≤ ntor) :
    (fun c => forRange lo hi (fun j s => forRange mlo mhi (fun m s =>
        forRange nlo nhi (fun n s => body j m n s) s) s) s c (fcIdx j0 mpol ntor j m n))
      = if (lo ≤ j ∧ j < hi) ∧ (mlo ≤ m ∧ m < mhi) ∧ (nlo ≤ n ∧ n < nhi)
        then h j m n (fun c => s c (fcIdx j0 mpol ntor j m n))
        else fun c => s c (fcIdx j0 mpol ntor j m n) := by
  set i := fcIdx j0 mpol ntor j m n with hi'
  have inner : ∀ (j' m' : Int) (s : C → Int → α),
      mlo ≤ m' → m' < mhi →
      (fun c => forRange nlo nhi (fun n s => body j' m' n s) s c i)
        = if j' = j ∧ m' = m ∧ nlo ≤ n ∧ n < nhi then h j m n (fun c => s c i) else fun c => s c i := by
    intro j' m' s k1 k2
    rw [show (fun c => forRange nlo nhi (fun n s => body j' m' n s) s c i)
        = forRange nlo nhi (fun n' v => if i = fcIdx j0 mpol ntor j' m' n' then h j' m' n' v else v)
          (fun c => s c i) from
      forRange_map (fun n s => body j' m' n s) _ (fun (s : C → Int → α) c => s c i)
        (fun n' s => hb j' m' n' s i) s]
    by_cases hh : j' = j ∧ m' = m ∧ nlo ≤ n ∧ n < nhi
    · rw [if_pos hh]
      obtain ⟨rfl, rfl, k3, k4⟩ := hh
      rw [forRange_only (j0 := n) k3 k4]
      · rw [if_pos hi']
      · intro n' v l1 l2 hne
        rw [if_neg]
        intro he
        exact hne (fcIdx_inj hm hm' hn hn' (by omega) (by omega) (by omega) (by omega) (hi' ▸ he)).2.2.symm
    · rw [if_neg hh, forRange_none]
      intro n' v l1 l2
      rw [if_neg]
      intro he
      obtain ⟨e1, e2, e3⟩ := fcIdx_inj hm hm' hn hn' (by omega) (by omega) (by omega) (by omega) (hi' ▸ he)
      exact hh ⟨e1.symm, e2.symm, by omega, by omega⟩
  have middle : ∀ (j' : Int) (s : C → Int → α),
      (fun c => forRange mlo mhi (fun m s => forRange nlo nhi (fun n s => body j' m n s) s) s c i)
        = if j' = j ∧ (mlo ≤ m ∧ m < mhi) ∧ (nlo ≤ n ∧ n < nhi) then h j m n (fun c => s c i)
          else fun c => s c i := by
    intro j' s
    rcases le_total mhi mlo with hle | hle
    · rw [forRange_empty hle, if_neg (by omega)]
    have hinv := forRange_inv (lo := mlo) (hi := mhi) hle
      (fun m s => forRange nlo nhi (fun n s => body j' m n s) s) s
      (fun (k : Int) (t : C → Int → α) => (fun c => t c i)
        = if j' = j ∧ (mlo ≤ m ∧ m < k) ∧ (nlo ≤ n ∧ n < nhi) then h j m n (fun c => s c i)
          else fun c => s c i)
      (by beta_reduce; rw [if_neg (by omega)])
      (by
        intro k t hk hk' ih
        beta_reduce at ih ⊢
        rw [inner j' k t hk hk', ih]
        by_cases e : j' = j ∧ k = m ∧ nlo ≤ n ∧ n < nhi
        · rw [if_pos e, if_neg (by omega), if_pos (by omega)]
        · rw [if_neg e]
          by_cases e' : j' = j ∧ (mlo ≤ m ∧ m < k) ∧ (nlo ≤ n ∧ n < nhi)
          · rw [if_pos e', if_pos (by omega)]
          · rw [if_neg e', if_neg (by omega)])
    exact hinv
  rcases le_total hi lo with hle | hle
  · rw [forRange_empty hle, if_neg (by omega)]
  have hinv := forRange_inv (lo := lo) (hi := hi) hle
    (fun j s => forRange mlo mhi (fun m s => forRange nlo nhi (fun n s => body j m n s) s) s) s
    (fun (k : Int) (t : C → Int → α) => (fun c => t c i)
      = if (lo ≤ j ∧ j < k) ∧ (mlo ≤ m ∧ m < mhi) ∧ (nlo ≤ n ∧ n < nhi) then h j m n (fun c => s c i)
        else fun c => s c i)
    (by beta_reduce; rw [if_neg (by omega)])
    (by
      intro k t hk hk' ih
      beta_reduce at ih ⊢
      rw [middle k t, ih]
      by_cases e : k = j ∧ (mlo ≤ m ∧ m < mhi) ∧ (nlo ≤ n ∧ n < nhi)
      · rw [if_pos e, if_neg (by omega), if_pos (by omega)]
      · rw [if_neg e]
        by_cases e' : (lo ≤ j ∧ j < k) ∧ (mlo ≤ m ∧ m < mhi) ∧ (nlo ≤ n ∧ n < nhi)
        · rw [if_pos e', if_pos (by omega)]
        · rw [if_neg e', if_neg (by omega)])
  exact hinv

end Verif
