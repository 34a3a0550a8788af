import Verif.TridiagOmp.Proto
import Verif.Tridiag.Props

/-!
# The sections of `TridiagonalSolveOpenMP`, one mode at a time
-/
namespace Verif.TridiagOmp
open Verif
open Verif.Tridiag (piv fwd)

variable {K : Type} [Field K]

/-! ## Loops over modes and right-hand sides -/

theorem modes_eq {S : Type} (mnmax : Int) (f : Int → S → S) (s : Int → S) (mn : Int) :
    modes mnmax f s mn = if 0 ≤ mn ∧ mn < mnmax then f mn (s mn) else s mn := by
  unfold modes
  by_cases h0 : 0 ≤ mnmax
  · have := forRange_inv h0 (fun mn s => upd s mn (f mn (s mn))) s
      (fun q s' => ∀ m, s' m = if 0 ≤ m ∧ m < q then f m (s m) else s m)
      (by intro m; rw [if_neg (by omega)])
      (by
        intro j s' hj0 hj1 ih m
        by_cases he : m = j
        · subst he; rw [upd_same, ih, if_neg (by omega), if_pos (by omega)]
        · rw [upd_ne _ _ he, ih]
          by_cases hm : 0 ≤ m ∧ m < j
          · rw [if_pos hm, if_pos (by omega)]
          · rw [if_neg hm, if_neg (by omega)])
    exact this mn
  · rw [forRange_empty (by omega), if_neg (by omega)]

theorem updc_eq (c : Int → Int → K) (k j : Int) (v : K) (k' j' : Int) :
    updc c k j v k' j' = if k' = k ∧ j' = j then v else c k' j' := by
  unfold updc upd
  by_cases hk : k' = k
  · subst hk; simp
  · simp [hk]

theorem loopc (n j : Int) (g : Int → (Int → Int → K) → K) (c : Int → Int → K)
    (hg : ∀ k c', c' k = c k → g k c' = g k c) (k' j' : Int) :
    forRange 0 n (fun k c => updc c k j (g k c)) c k' j' =
      if (0 ≤ k' ∧ k' < n) ∧ j' = j then g k' c else c k' j' := by
  by_cases h0 : 0 ≤ n
  · have := forRange_inv h0 (fun k c => updc c k j (g k c)) c
      (fun q c' => ∀ k' j', c' k' j' = if (0 ≤ k' ∧ k' < q) ∧ j' = j then g k' c else c k' j')
      (by intro k' j'; rw [if_neg (by omega)])
      (by
        intro q c' hq0 hq1 ih k' j'
        rw [updc_eq]
        by_cases he : k' = q ∧ j' = j
        · obtain ⟨rfl, rfl⟩ := he
          rw [if_pos ⟨rfl, rfl⟩, if_pos (by omega)]
          apply hg
          funext j''
          rw [ih, if_neg (by omega)]
        · rw [if_neg he, ih]
          by_cases hk : (0 ≤ k' ∧ k' < q) ∧ j' = j
          · rw [if_pos hk, if_pos (by omega)]
          · rw [if_neg hk, if_neg (by omega)])
    exact this k' j'
  · rw [forRange_empty (by omega), if_neg (by omega)]

theorem looph (n : Int) (v : Int → K) (h : Int → K) (k' : Int) :
    forRange 0 n (fun k h => upd h k (v k)) h k' = if 0 ≤ k' ∧ k' < n then v k' else h k' := by
  exact modes_eq n (fun k _ => v k) h k'

/-! ## One mode -/

def head1 (jMin nRHS nsMaxF : Int) (s : Arr K) : Arr K :=
  divFirst jMin nRHS (forRange 0 nsMaxF (fun j s => fillRow jMin nRHS j s) s)

def fwd1 (jMin jMax nRHS nsMinF nsMaxF : Int) (s : Arr K) : Arr K :=
  forRange nsMinF (min jMax nsMaxF) (fun j s => fwdRow jMin jMax nRHS nsMinF nsMaxF j s) s

def bwd1 (jMin jMax nRHS nsMinF nsMaxF : Int) (s : Arr K) : Arr K :=
  forRangeRev nsMinF (min (jMax - 2) (nsMaxF - 1) + 1) (fun j s => bwdRow jMin nRHS nsMinF nsMaxF j s) s

theorem forRangeRev_map {S T : Type*} {lo hi : Int} (f : Int → S → S) (f' : Int → T → T) (g : S → T)
    (h : ∀ j s, g (f j s) = f' j (g s)) (s : S) :
    g (forRangeRev lo hi f s) = forRangeRev lo hi f' (g s) := by
  unfold forRangeRev
  generalize (irange lo hi).reverse = l
  induction l generalizing s with
  | nil => rfl
  | cons x l ih => simp only [List.foldl_cons]; rw [ih, h]

variable {mnmax mn : Int}

theorem head_mode (hm : 0 ≤ mn ∧ mn < mnmax) (jMin : Int → Int) (nRHS nsMaxF : Int) (s : Int → Arr K) :
    head jMin mnmax nRHS nsMaxF s mn = head1 (jMin mn) nRHS nsMaxF (s mn) := by
  unfold head head1
  rw [modes_eq, if_pos hm]
  congr 1
  exact forRange_map (fun j s => modes mnmax (fun mn => fillRow (jMin mn) nRHS j) s)
    (fun j s => fillRow (jMin mn) nRHS j s) (fun s : Int → Arr K => s mn)
    (fun j s => by simp only [modes_eq, if_pos hm]) s

theorem forward_mode (hm : 0 ≤ mn ∧ mn < mnmax) (jMin : Int → Int) (jMax nRHS lo hi : Int) (s : Int → Arr K) :
    forward jMin jMax mnmax nRHS lo hi s mn = fwd1 (jMin mn) jMax nRHS lo hi (s mn) :=
  forRange_map (fun j s => modes mnmax (fun mn => fwdRow (jMin mn) jMax nRHS lo hi j) s)
    (fun j s => fwdRow (jMin mn) jMax nRHS lo hi j s) (fun s : Int → Arr K => s mn)
    (fun j s => by simp only [modes_eq, if_pos hm]) s

theorem backward_mode (hm : 0 ≤ mn ∧ mn < mnmax) (jMin : Int → Int) (jMax nRHS lo hi : Int) (s : Int → Arr K) :
    backward jMin jMax mnmax nRHS lo hi s mn = bwd1 (jMin mn) jMax nRHS lo hi (s mn) :=
  forRangeRev_map (fun j s => modes mnmax (fun mn => bwdRow (jMin mn) nRHS lo hi j) s)
    (fun j s => bwdRow (jMin mn) nRHS lo hi j s) (fun s : Int → Arr K => s mn)
    (fun j s => by simp only [modes_eq, if_pos hm]) s

/-! ## Forward -/

/-- rows below `J` are eliminated; `o` is the memory at the start -/
structure FI (o : Arr K) (jMin jMax nRHS J : Int) (s : Arr K) : Prop where
  d : ∀ j, jMin ≤ j → s.d j = o.d j
  b : ∀ j, jMin ≤ j → s.b j = o.b j
  a : ∀ i : ℕ, jMin + i < J → jMin + i < jMax - 1 → s.a (jMin + i) = o.a (jMin + i) / piv o.a o.d o.b jMin i
  a' : ∀ j, J ≤ j → s.a j = o.a j
  c : ∀ k, 0 ≤ k → k < nRHS → ∀ i : ℕ, jMin + i < J → s.c k (jMin + i) = fwd o.a o.d o.b (o.c k) jMin i
  c' : ∀ k j, J ≤ j ∨ j < 0 ∨ ¬ (0 ≤ k ∧ k < nRHS) → s.c k j = o.c k j
  z : ∀ k, 0 ≤ k → k < nRHS → ∀ j, 0 ≤ j → j < jMin → s.c k j = 0

/-- the handover storage describes row `J - 1` -/
def HO (jMax nRHS J : Int) (s : Arr K) : Prop :=
  (J < jMax → s.ha = s.a (J - 1)) ∧ ∀ k, 0 ≤ k → k < nRHS → s.hc k = s.c k (J - 1)

theorem fill_eq (o : Arr K) (jMin nRHS nsMaxF : Int) (h1 : 0 ≤ nsMaxF) :
    let s := forRange 0 nsMaxF (fun j s => fillRow jMin nRHS j s) o
    (∀ j, jMin ≤ j → s.a j = o.a j ∧ s.d j = o.d j ∧ s.b j = o.b j) ∧
    (∀ k j, s.c k j = if (0 ≤ k ∧ k < nRHS) ∧ 0 ≤ j ∧ j < jMin ∧ j < nsMaxF then 0 else o.c k j) := by
  refine forRange_inv h1 (fun j s => fillRow jMin nRHS j s) o
    (fun q s => (∀ j, jMin ≤ j → s.a j = o.a j ∧ s.d j = o.d j ∧ s.b j = o.b j) ∧
    (∀ k j, s.c k j = if (0 ≤ k ∧ k < nRHS) ∧ 0 ≤ j ∧ j < jMin ∧ j < q then 0 else o.c k j)) ?_ ?_
  · exact ⟨fun _ _ => ⟨rfl, rfl, rfl⟩, fun k j => by rw [if_neg (by omega)]⟩
  · rintro q s hq0 hq1 ⟨i1, i2⟩
    unfold fillRow
    by_cases hq : q < jMin
    · rw [if_pos hq]
      refine ⟨fun j hj => ?_, fun k j => ?_⟩
      · dsimp only
        rw [upd_ne _ _ (by omega), upd_ne _ _ (by omega), upd_ne _ _ (by omega)]
        exact i1 j hj
      · dsimp only
        rw [loopc nRHS q (fun _ _ => 0) s.c (fun _ _ _ => rfl), i2]
        by_cases e : (0 ≤ k ∧ k < nRHS) ∧ j = q
        · rw [if_pos e, if_pos (by omega)]
        · rw [if_neg e]
          by_cases e2 : (0 ≤ k ∧ k < nRHS) ∧ 0 ≤ j ∧ j < jMin ∧ j < q
          · rw [if_pos e2, if_pos (by omega)]
          · rw [if_neg e2, if_neg (by omega)]
    · rw [if_neg hq]
      refine ⟨i1, fun k j => ?_⟩
      rw [i2]
      by_cases e2 : (0 ≤ k ∧ k < nRHS) ∧ 0 ≤ j ∧ j < jMin ∧ j < q
      · rw [if_pos e2, if_pos (by omega)]
      · rw [if_neg e2, if_neg (by omega)]

theorem head1_FI (o : Arr K) (jMin jMax nRHS nsMaxF : Int) (h0 : 0 ≤ jMin) (h1 : jMin < nsMaxF) :
    FI o jMin jMax nRHS (jMin + 1) (head1 jMin nRHS nsMaxF o) := by
  obtain ⟨f1, f2⟩ := fill_eq o jMin nRHS nsMaxF (by omega)
  unfold head1
  obtain ⟨s, hs⟩ : ∃ s, s = forRange 0 nsMaxF (fun j s => fillRow jMin nRHS j s) o := ⟨_, rfl⟩
  rw [← hs] at f1 f2 ⊢
  have hc : ∀ k j, (divFirst jMin nRHS s).c k j = if (0 ≤ k ∧ k < nRHS) ∧ j = jMin then s.c k jMin / s.d jMin else s.c k j :=
    fun k j => loopc nRHS jMin (fun k c => c k jMin / s.d jMin) s.c (fun k c' e => by rw [e]) k j
  constructor
  · intro j hj; exact (f1 j hj).2.1
  · intro j hj; exact (f1 j hj).2.2
  · intro i hi hi2
    have : i = 0 := by omega
    subst this
    simp only [divFirst, Nat.cast_zero, add_zero, upd_same, piv]
    rw [(f1 jMin le_rfl).1, (f1 jMin le_rfl).2.1]
  · intro j hj
    simp only [divFirst]
    rw [upd_ne _ _ (by omega)]; exact (f1 j (by omega)).1
  · intro k hk0 hk1 i hi
    have : i = 0 := by omega
    subst this
    rw [hc, if_pos ⟨⟨hk0, hk1⟩, by simp⟩, f2, if_neg (by omega), (f1 jMin le_rfl).2.1]
    simp [fwd, piv]
  · intro k j hj
    rw [hc, if_neg (by omega), f2, if_neg (by omega)]
  · intro k hk0 hk1 j hj0 hj1
    rw [hc, if_neg (by omega), f2, if_pos (by omega)]

theorem fwdRow_c (jMin jMax nRHS lo hi j : Int) (s : Arr K) (h : jMin + 1 ≤ j) (k j' : Int) :
    (fwdRow jMin jMax nRHS lo hi j s).c k j' =
      if (0 ≤ k ∧ k < nRHS) ∧ j' = j then
        (s.c k j - (if j = lo then s.hc k else s.c k (j - 1)) * s.b j) / (s.d j - (if j = lo then s.ha else s.a (j - 1)) * s.b j)
      else s.c k j' := by
  unfold fwdRow
  rw [if_neg (by omega)]
  exact loopc nRHS j (fun k c => (c k j - (if j = lo then s.hc k else c k (j - 1)) * s.b j) /
    (s.d j - (if j = lo then s.ha else s.a (j - 1)) * s.b j)) s.c (fun k c' e => by rw [e]) k j'

theorem fwdRow_a (jMin jMax nRHS lo hi j : Int) (s : Arr K) (h : jMin + 1 ≤ j) (j' : Int) :
    (fwdRow jMin jMax nRHS lo hi j s).a j' =
      if j' = j ∧ j < jMax - 1 then s.a j / (s.d j - (if j = lo then s.ha else s.a (j - 1)) * s.b j) else s.a j' := by
  unfold fwdRow
  rw [if_neg (by omega)]
  dsimp only
  by_cases e : j < jMax - 1
  · rw [if_pos e]
    by_cases e2 : j' = j
    · subst e2; rw [upd_same]; exact (if_pos (show j' = j' ∧ j' < jMax - 1 from ⟨rfl, e⟩)).symm
    · rw [upd_ne _ _ e2, if_neg (by omega)]
  · rw [if_neg e, if_neg (by omega)]

theorem fwdRow_db (jMin jMax nRHS lo hi j : Int) (s : Arr K) :
    (fwdRow jMin jMax nRHS lo hi j s).d = s.d ∧ (fwdRow jMin jMax nRHS lo hi j s).b = s.b := by
  unfold fwdRow
  split <;> exact ⟨rfl, rfl⟩

theorem fwdRow_h (jMin jMax nRHS lo hi j : Int) (s : Arr K) (h : j ≠ hi - 1) :
    (fwdRow jMin jMax nRHS lo hi j s).ha = s.ha ∧ (fwdRow jMin jMax nRHS lo hi j s).hc = s.hc := by
  unfold fwdRow
  split
  · exact ⟨rfl, rfl⟩
  · simp [h]

theorem fwdRow_HO (jMin jMax nRHS lo hi : Int) (s : Arr K) (h : jMin + 1 ≤ hi - 1) :
    HO jMax nRHS hi (fwdRow jMin jMax nRHS lo hi (hi - 1) s) := by
  unfold fwdRow
  rw [if_neg (by omega)]
  dsimp only
  rw [if_pos rfl]
  refine ⟨fun _ => by simp only, fun k hk0 hk1 => ?_⟩
  dsimp only
  rw [if_pos rfl]
  rw [looph nRHS, if_pos ⟨hk0, hk1⟩]

/-- one row of the forward section -/
theorem fwdRow_FI {o s : Arr K} {jMin jMax nRHS lo hi j : Int} (h : FI o jMin jMax nRHS j s) (h0 : 0 ≤ jMin)
    (h1 : jMin + 1 ≤ j) (h2 : j < jMax)
    (ho : j = lo → HO jMax nRHS j s) : FI o jMin jMax nRHS (j + 1) (fwdRow jMin jMax nRHS lo hi j s) := by
  obtain ⟨e1, e2⟩ := fwdRow_db jMin jMax nRHS lo hi j s
  obtain ⟨i, rfl⟩ : ∃ i : ℕ, j = jMin + i + 1 := ⟨(j - jMin - 1).toNat, by omega⟩
  have ej : jMin + (i : Int) + 1 - 1 = jMin + i := by ring
  have pa : (if jMin + (i : Int) + 1 = lo then s.ha else s.a (jMin + i + 1 - 1)) = o.a (jMin + i) / piv o.a o.d o.b jMin i := by
    split
    · rename_i e
      rw [(ho e).1 h2, ej]; exact h.a i (by omega) (by omega)
    · rw [ej]; exact h.a i (by omega) (by omega)
  have pc : ∀ k, 0 ≤ k → k < nRHS → (if jMin + (i : Int) + 1 = lo then s.hc k else s.c k (jMin + i + 1 - 1)) =
      fwd o.a o.d o.b (o.c k) jMin i := by
    intro k hk0 hk1
    split
    · rename_i e
      rw [(ho e).2 k hk0 hk1, ej]; exact h.c k hk0 hk1 i (by omega)
    · rw [ej]; exact h.c k hk0 hk1 i (by omega)
  have den : s.d (jMin + i + 1) - (if jMin + (i : Int) + 1 = lo then s.ha else s.a (jMin + i + 1 - 1)) * s.b (jMin + i + 1) =
      piv o.a o.d o.b jMin (i + 1) := by
    rw [pa, h.d _ (by omega), h.b _ (by omega)]; rfl
  constructor
  · rw [e1]; exact h.d
  · rw [e2]; exact h.b
  · intro i' hi hi'
    rw [fwdRow_a _ _ _ _ _ _ _ h1]
    by_cases e : jMin + (i' : Int) = jMin + i + 1
    · have : i' = i + 1 := by omega
      subst this
      rw [if_pos ⟨e, by omega⟩, den, h.a' _ le_rfl, e]
    · rw [if_neg (by omega)]; exact h.a i' (by omega) hi'
  · intro j hj
    rw [fwdRow_a _ _ _ _ _ _ _ h1, if_neg (by omega)]; exact h.a' j (by omega)
  · intro k hk0 hk1 i' hi
    rw [fwdRow_c _ _ _ _ _ _ _ h1]
    by_cases e : jMin + (i' : Int) = jMin + i + 1
    · have : i' = i + 1 := by omega
      subst this
      rw [if_pos ⟨⟨hk0, hk1⟩, e⟩, den, pc k hk0 hk1, h.c' k _ (Or.inl le_rfl), h.b _ (by omega)]
      rfl
    · rw [if_neg (by omega)]; exact h.c k hk0 hk1 i' (by omega)
  · intro k j hj
    rw [fwdRow_c _ _ _ _ _ _ _ h1, if_neg (by omega)]; exact h.c' k j (by omega)
  · intro k hk0 hk1 j hj0 hj1
    rw [fwdRow_c _ _ _ _ _ _ _ h1, if_neg (by omega)]; exact h.z k hk0 hk1 j hj0 hj1

/-- the forward section of one thread -/
theorem fwd1_FI {o s : Arr K} {jMin jMax nRHS lo hi : Int} (h0 : 0 ≤ jMin) (hj : jMin < jMax) (hlh : lo < hi)
    (h : FI o jMin jMax nRHS (max (jMin + 1) (min jMax lo)) s)
    (ho : jMin + 1 ≤ lo → lo < jMax → HO jMax nRHS lo s) :
    FI o jMin jMax nRHS (max (jMin + 1) (min jMax hi)) (fwd1 jMin jMax nRHS lo hi s) ∧
    (jMin + 2 ≤ hi → lo < jMax → hi ≤ jMax → HO jMax nRHS hi (fwd1 jMin jMax nRHS lo hi s)) ∧
    (jMax ≤ lo → fwd1 jMin jMax nRHS lo hi s = s) := by
  by_cases hlo : jMax ≤ lo
  · have e : fwd1 jMin jMax nRHS lo hi s = s := by
      unfold fwd1; rw [forRange_empty (by omega)]
    rw [e]
    refine ⟨?_, by omega, fun _ => rfl⟩
    rw [show max (jMin + 1) (min jMax hi) = max (jMin + 1) (min jMax lo) by omega]
    exact h
  have := forRange_inv (lo := lo) (hi := min jMax hi) (by omega) (fun j s => fwdRow jMin jMax nRHS lo hi j s) s
    (fun j s' => FI o jMin jMax nRHS (max (jMin + 1) j) s' ∧ (j = lo → s' = s) ∧
      (j = hi → jMin + 2 ≤ hi → HO jMax nRHS hi s'))
    (by
      refine ⟨?_, fun _ => rfl, by omega⟩
      rw [show min jMax lo = lo by omega] at h
      exact h)
    (by
      rintro j s' hj0 hj1 ⟨i1, i2, i3⟩
      refine ⟨?_, by omega, ?_⟩
      · by_cases e : jMin + 1 ≤ j
        · rw [show max (jMin + 1) j = j by omega] at i1
          rw [show max (jMin + 1) (j + 1) = j + 1 by omega]
          exact fwdRow_FI i1 h0 e (by omega) (fun e2 => by
            subst e2; rw [i2 rfl]; exact ho (by omega) (by omega))
        · rw [show max (jMin + 1) (j + 1) = max (jMin + 1) j by omega]
          have : fwdRow jMin jMax nRHS lo hi j s' = s' := by unfold fwdRow; rw [if_pos (by omega)]
          rw [this]; exact i1
      · intro e e2
        have : j = hi - 1 := by omega
        subst this
        exact fwdRow_HO jMin jMax nRHS lo hi s' (by omega))
  refine ⟨this.1, fun h2 _ h3 => this.2.2 (by omega) h2, by omega⟩

/-! ## Backward -/

/-- rows from `J` on are solved; `f` is the memory after the forward sections -/
structure BI (f : Arr K) (jMin jMax nRHS J : Int) (s : Arr K) : Prop where
  a : s.a = f.a
  x : ∀ k, 0 ≤ k → k < nRHS → ∀ j, jMin ≤ j → J ≤ j → j < jMax - 1 → s.c k j = f.c k j - f.a j * s.c k (j + 1)
  c : ∀ k j, (j < J ∨ j < jMin ∨ jMax - 1 ≤ j ∨ ¬ (0 ≤ k ∧ k < nRHS)) → s.c k j = f.c k j

/-- the handover storage holds row `J` -/
def HB (nRHS J : Int) (s : Arr K) : Prop := ∀ k, 0 ≤ k → k < nRHS → s.hc k = s.c k J

theorem bwdRow_c (jMin nRHS lo hi j : Int) (s : Arr K) (h : jMin ≤ j) (k j' : Int) :
    (bwdRow jMin nRHS lo hi j s).c k j' =
      if (0 ≤ k ∧ k < nRHS) ∧ j' = j then s.c k j - s.a j * (if j = hi - 1 then s.hc k else s.c k (j + 1))
      else s.c k j' := by
  unfold bwdRow
  rw [if_neg (by omega)]
  exact loopc nRHS j (fun k c => c k j - s.a j * (if j = hi - 1 then s.hc k else c k (j + 1))) s.c
    (fun k c' e => by rw [e]) k j'

theorem bwdRow_a (jMin nRHS lo hi j : Int) (s : Arr K) : (bwdRow jMin nRHS lo hi j s).a = s.a := by
  unfold bwdRow; split <;> rfl

theorem bwdRow_HB (jMin nRHS lo hi : Int) (s : Arr K) (h : jMin ≤ lo) :
    HB nRHS lo (bwdRow jMin nRHS lo hi lo s) := by
  intro k hk0 hk1
  unfold bwdRow
  rw [if_neg (by omega)]
  dsimp only
  rw [if_pos rfl, looph nRHS, if_pos ⟨hk0, hk1⟩]

theorem bwdRow_BI {f s : Arr K} {jMin jMax nRHS lo hi j : Int} (h : BI f jMin jMax nRHS (j + 1) s) (h1 : jMin ≤ j)
    (h2 : j < jMax - 1) (ho : j = hi - 1 → HB nRHS hi s) :
    BI f jMin jMax nRHS j (bwdRow jMin nRHS lo hi j s) := by
  constructor
  · rw [bwdRow_a]; exact h.a
  · intro k hk0 hk1 j' hj0 hj1 hj2
    rw [bwdRow_c _ _ _ _ _ _ h1, bwdRow_c _ _ _ _ _ _ h1]
    by_cases e : j' = j
    · subst e
      rw [if_pos (show (0 ≤ k ∧ k < nRHS) ∧ j' = j' from ⟨⟨hk0, hk1⟩, rfl⟩),
        if_neg (show ¬ ((0 ≤ k ∧ k < nRHS) ∧ j' + 1 = j') by omega), h.a, h.c k j' (by omega)]
      split
      · rename_i e2
        rw [ho e2 k hk0 hk1, e2, show hi - 1 + 1 = hi by ring]
      · rfl
    · rw [if_neg (by omega), if_neg (by omega)]
      exact h.x k hk0 hk1 j' hj0 (by omega) hj2
  · intro k j' hj'
    rw [bwdRow_c _ _ _ _ _ _ h1, if_neg (by omega)]
    exact h.c k j' (by omega)

/-- the backward section of one thread -/
theorem bwd1_BI {f s : Arr K} {jMin jMax nRHS lo hi : Int} (hlh : lo < hi)
    (h : BI f jMin jMax nRHS (min (jMax - 1) hi) s) (ho : jMin + 1 ≤ hi → hi ≤ jMax - 1 → HB nRHS hi s) :
    BI f jMin jMax nRHS (min (jMax - 1) lo) (bwd1 jMin jMax nRHS lo hi s) ∧
    (jMin ≤ lo → lo ≤ jMax - 2 → HB nRHS lo (bwd1 jMin jMax nRHS lo hi s)) ∧
    (jMax - 1 ≤ lo → bwd1 jMin jMax nRHS lo hi s = s) := by
  by_cases hlo : jMax - 1 ≤ lo
  · have e : bwd1 jMin jMax nRHS lo hi s = s := by
      unfold bwd1 forRangeRev; rw [irange_empty (by omega)]; rfl
    rw [e]
    refine ⟨?_, by omega, fun _ => rfl⟩
    rw [show min (jMax - 1) lo = min (jMax - 1) hi by omega]
    exact h
  have := forRangeRev_inv (lo := lo) (hi := min (jMax - 2) (hi - 1) + 1) (by omega)
    (fun j s => bwdRow jMin nRHS lo hi j s) s
    (fun j s' => BI f jMin jMax nRHS j s' ∧ (j = hi → s' = s) ∧ (j = lo → jMin ≤ lo → HB nRHS lo s'))
    (by
      refine ⟨?_, fun _ => rfl, by omega⟩
      rw [show min (jMax - 2) (hi - 1) + 1 = min (jMax - 1) hi by omega]
      exact h)
    (by
      rintro j s' hj0 hj1 ⟨i1, i2, i3⟩
      refine ⟨?_, by omega, ?_⟩
      · by_cases e : jMin ≤ j
        · exact bwdRow_BI i1 e (by omega) (fun e2 => by rw [i2 (by omega)]; exact ho (by omega) (by omega))
        · have : bwdRow jMin nRHS lo hi j s' = s' := by unfold bwdRow; rw [if_pos (by omega)]
          rw [this]
          exact ⟨i1.a, fun k hk0 hk1 j' a b c => i1.x k hk0 hk1 j' a (by omega) c, fun k j' hj' => i1.c k j' (by omega)⟩
      · intro e e2
        subst e
        exact bwdRow_HB jMin nRHS j hi s' e2)
  refine ⟨?_, fun h2 h3 => this.2.2 rfl h2, by omega⟩
  rw [show min (jMax - 1) lo = lo by omega]
  exact this.1

/-! ## All threads in the order of the protocol -/

theorem seq_mode {jMin : Int → Int} {jMax nRHS : Int} {lim : ℕ → Int} (hm : 0 ≤ mn ∧ mn < mnmax) (n p q : ℕ) (o : Int → Arr K) :
    seq (sections jMin jMax mnmax nRHS lim) n o p q mn =
      (List.range q).foldl (fun s i => bwd1 (jMin mn) jMax nRHS (lim (n - 1 - i)) (lim (n - 1 - i + 1)) s)
        ((List.range p).foldl (fun s i => fwd1 (jMin mn) jMax nRHS (lim i) (lim (i + 1)) s)
          (head1 (jMin mn) nRHS (lim 1) (o mn))) := by
  unfold seq
  have h1 : ∀ p, (List.range p).foldl (fun m i => (sections jMin jMax mnmax nRHS lim).fwd i m)
      ((sections jMin jMax mnmax nRHS lim).head o) mn =
      (List.range p).foldl (fun s i => fwd1 (jMin mn) jMax nRHS (lim i) (lim (i + 1)) s) (head1 (jMin mn) nRHS (lim 1) (o mn)) := by
    intro p
    induction p with
    | zero => exact head_mode hm jMin nRHS (lim 1) o
    | succ p ih =>
      rw [List.range_succ, List.foldl_append, List.foldl_append, List.foldl_cons, List.foldl_nil, List.foldl_cons, List.foldl_nil, ← ih]
      exact forward_mode hm jMin jMax nRHS _ _ _
  induction q with
  | zero => exact h1 p
  | succ q ih =>
    rw [List.range_succ, List.foldl_append, List.foldl_append, List.foldl_cons, List.foldl_nil, List.foldl_cons, List.foldl_nil, ← ih]
    exact backward_mode hm jMin jMax nRHS _ _ _

theorem lim_mono {lim : ℕ → Int} {n : ℕ} (h : ∀ t < n, lim t < lim (t + 1)) : ∀ k t, t + k ≤ n → lim t ≤ lim (t + k) := by
  intro k
  induction k with
  | zero => intro t _; exact le_rfl
  | succ k ih =>
    intro t ht
    have := ih t (by omega)
    have h2 := h (t + k) (by omega)
    rw [show t + (k + 1) = t + k + 1 by omega]; omega

theorem all_threads {n : ℕ} {lim : ℕ → Int} {jMin jMax nRHS : Int} (o : Arr K) (hn : 0 < n) (l0 : lim 0 = 0)
    (hl : ∀ t < n, lim t < lim (t + 1)) (h0 : 0 ≤ jMin) (h1 : jMin < jMax) (hN : jMax ≤ lim n)
    (c1 : jMin < lim 1) (c2 : 1 < n → jMin + 2 ≤ lim 1)
    (c3 : ∀ t, 0 < t → t < n → lim t = jMax - 1 → lim (t + 1) = jMax) :
    ∃ f, FI o jMin jMax nRHS jMax f ∧ BI f jMin jMax nRHS 0
      ((List.range n).foldl (fun s i => bwd1 jMin jMax nRHS (lim (n - 1 - i)) (lim (n - 1 - i + 1)) s)
        ((List.range n).foldl (fun s i => fwd1 jMin jMax nRHS (lim i) (lim (i + 1)) s)
          (head1 jMin nRHS (lim 1) o))) := by
  have l1 : ∀ t, 0 < t → t ≤ n → lim 1 ≤ lim t := fun t ht htn => by
    have := lim_mono hl (t - 1) 1 (by omega)
    rwa [show 1 + (t - 1) = t by omega] at this
  -- forward
  have F : ∀ p ≤ n, let s := (List.range p).foldl (fun s i => fwd1 jMin jMax nRHS (lim i) (lim (i + 1)) s) (head1 jMin nRHS (lim 1) o)
      FI o jMin jMax nRHS (max (jMin + 1) (min jMax (lim p))) s ∧
      (0 < p → p < n → lim p ≤ jMax → HO jMax nRHS (lim p) s) ∧
      (∀ t, 0 < t → t ≤ p → t < n → lim t = jMax → HO jMax nRHS jMax s) := by
    intro p
    induction p with
    | zero =>
      intro _
      refine ⟨?_, by omega, by omega⟩
      rw [l0, show max (jMin + 1) (min jMax 0) = jMin + 1 by omega]
      exact head1_FI o jMin jMax nRHS (lim 1) h0 c1
    | succ p ih =>
      intro hp
      have ih := ih (by omega)
      dsimp only at ih ⊢
      rw [List.range_succ, List.foldl_append, List.foldl_cons, List.foldl_nil]
      obtain ⟨s, hs⟩ : ∃ s, s = (List.range p).foldl (fun s i => fwd1 jMin jMax nRHS (lim i) (lim (i + 1)) s) (head1 jMin nRHS (lim 1) o) :=
        ⟨_, rfl⟩
      rw [← hs] at ih ⊢
      obtain ⟨i1, i2, i3⟩ := ih
      have := fwd1_FI h0 h1 (hl p (by omega)) i1 (fun a b => by
        have p0 : 0 < p := by
          by_contra hp0
          have : p = 0 := by omega
          subst this; omega
        exact i2 p0 (by omega) (by omega))
      obtain ⟨r1, r2, r3⟩ := this
      have hlp := hl p (by omega)
      refine ⟨r1, fun _ hp1 hle => ?_, fun t t0 t1 tn et => ?_⟩
      · have := l1 (p + 1) (by omega) (by omega)
        have := c2 (by omega)
        exact r2 (by omega) (by omega) hle
      · by_cases e : t = p + 1
        · subst e
          have := l1 (p + 1) (by omega) (by omega)
          have := c2 (by omega)
          rw [← et]
          have := r2 (by omega) (by omega) (by omega)
          rw [← et] at this
          exact this
        · have hm := lim_mono hl (p - t) t (by omega)
          rw [show t + (p - t) = p by omega] at hm
          rw [r3 (by omega)]
          exact i3 t t0 (by omega) tn et
  obtain ⟨f, hf⟩ : ∃ f, f = (List.range n).foldl (fun s i => fwd1 jMin jMax nRHS (lim i) (lim (i + 1)) s) (head1 jMin nRHS (lim 1) o) :=
    ⟨_, rfl⟩
  have Fn := F n le_rfl
  dsimp only at Fn
  rw [← hf] at Fn ⊢
  rw [show max (jMin + 1) (min jMax (lim n)) = jMax by omega] at Fn
  refine ⟨f, Fn.1, ?_⟩
  -- backward
  have B : ∀ q ≤ n, let s := (List.range q).foldl (fun s i => bwd1 jMin jMax nRHS (lim (n - 1 - i)) (lim (n - 1 - i + 1)) s) f
      BI f jMin jMax nRHS (min (jMax - 1) (lim (n - q))) s ∧
      (q < n → lim (n - q) ≤ jMax - 1 → HB nRHS (lim (n - q)) s) ∧ (jMax - 1 ≤ lim (n - q) → s = f) := by
    intro q
    induction q with
    | zero =>
      intro _
      refine ⟨⟨rfl, ?_, fun _ _ _ => rfl⟩, ?_, fun _ => rfl⟩
      · intro k hk0 hk1 j hj0 hj1 hj2
        rw [show n - 0 = n by omega] at hj1; omega
      · intro _ h; rw [show n - 0 = n by omega] at h; omega
    | succ q ih =>
      intro hq
      have ih := ih (by omega)
      dsimp only at ih ⊢
      rw [List.range_succ, List.foldl_append, List.foldl_cons, List.foldl_nil]
      obtain ⟨s, hs⟩ : ∃ s, s = (List.range q).foldl (fun s i => bwd1 jMin jMax nRHS (lim (n - 1 - i)) (lim (n - 1 - i + 1)) s) f :=
        ⟨_, rfl⟩
      rw [← hs] at ih ⊢
      obtain ⟨i1, i2, i3⟩ := ih
      obtain ⟨t, ht⟩ : ∃ t, t = n - (q + 1) := ⟨_, rfl⟩
      rw [show n - 1 - q = t by omega, ← ht]
      rw [show n - q = t + 1 by omega] at i1 i2 i3
      have hlt := hl t (by omega)
      obtain ⟨r1, r2, r3⟩ := bwd1_BI hlt i1 (fun a b => i2 (by
        by_contra hqn
        have : t + 1 = n := by omega
        rw [this] at b; omega) b)
      refine ⟨r1, fun hqn hle => ?_, fun hge => ?_⟩
      · have t0 : 0 < t := by omega
        have := l1 t t0 (by omega)
        have := c2 (by omega)
        by_cases e : lim t ≤ jMax - 2
        · exact r2 (by omega) e
        · have e2 : lim t = jMax - 1 := by omega
          have e3 := c3 t t0 (by omega) e2
          have : bwd1 jMin jMax nRHS (lim t) (lim (t + 1)) s = f := by
            rw [r3 (by omega), i3 (by omega)]
          rw [this, e2]
          by_cases tn : t + 1 < n
          · exact (Fn.2.2 (t + 1) (by omega) (by omega) tn e3).2
          · -- the last thread ends at `jMax`
            have hp := F t (by omega)
            have tn1 : n = t + 1 := by omega
            dsimp only at hp
            obtain ⟨g1, g2, _⟩ := hp
            have hff : f = fwd1 jMin jMax nRHS (lim t) (lim (t + 1))
                ((List.range t).foldl (fun s i => fwd1 jMin jMax nRHS (lim i) (lim (i + 1)) s) (head1 jMin nRHS (lim 1) o)) := by
              rw [hf, tn1, List.range_succ, List.foldl_append, List.foldl_cons, List.foldl_nil]
            have := (fwd1_FI h0 h1 hlt g1 (fun a b => g2 t0 (by omega) (by omega))).2.1 (by omega) (by omega) (by omega)
            rw [← hff, e3] at this
            exact this.2
      · rw [r3 hge, i3 (by omega)]
  have Bn := (B n le_rfl).1
  rw [show n - n = 0 by omega, l0, show min (jMax - 1) 0 = 0 by omega] at Bn
  exact Bn

end Verif.TridiagOmp
