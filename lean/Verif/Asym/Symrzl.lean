import Verif.Asym.Lemmas

/-!
# What `symrzl` does to the arrays
-/
namespace Verif.Asym
open Verif Verif.Fourier Partition Finset Transform

/-- a loop whose pass `j` writes the cells `W j` and nothing else; `P` is what the passes need to know about the state -/
theorem loop_sets {C : Type} {lo hi : Int} (f : Int → (C → Int → ℝ) → C → Int → ℝ) (P : Int → (C → Int → ℝ) → Prop)
    (W : Int → C → Int → Prop) (Q : C → Int → ℝ → Prop)
    (h : ∀ j g, lo ≤ j → j < hi → P j g → P (j + 1) (f j g) ∧ (∀ a i, W j a i → Q a i (f j g a i)) ∧
      ∀ a i, ¬ W j a i → f j g a i = g a i) (g : C → Int → ℝ) (hle : lo ≤ hi) (h0 : P lo g) :
    P hi (forRange lo hi f g) ∧ (∀ a i, (∃ j, lo ≤ j ∧ j < hi ∧ W j a i) → Q a i (forRange lo hi f g a i)) ∧
      ∀ a i, (∀ j, lo ≤ j → j < hi → ¬ W j a i) → forRange lo hi f g a i = g a i := by
  refine forRange_inv hle f g (fun k t => P k t ∧ (∀ a i, (∃ j, lo ≤ j ∧ j < k ∧ W j a i) → Q a i (t a i)) ∧
      ∀ a i, (∀ j, lo ≤ j → j < k → ¬ W j a i) → t a i = g a i) ⟨h0, ?_, fun _ _ _ => rfl⟩ ?_
  · rintro a i ⟨j, h1, h2, _⟩
    omega
  · rintro k t hk hk' ⟨p1, p2, p3⟩
    obtain ⟨q1, q2, q3⟩ := h k t hk hk' p1
    refine ⟨q1, ?_, ?_⟩
    · rintro a i ⟨j, h1, h2, h3⟩
      by_cases hw : W k a i
      · exact q2 a i hw
      · rw [q3 a i hw]
        refine p2 a i ⟨j, h1, ?_, h3⟩
        have : j ≠ k := fun e => hw (e ▸ h3)
        omega
    · intro a i hn
      rw [q3 a i (hn k hk (by omega))]
      exact p3 a i fun j h1 h2 => hn j h1 (by omega)

variable {c : Ctx}

/-- sizes of a run without stellarator symmetry -/
structure Full (c : Ctx) : Prop extends GoodP c where
  full : c.s.nThetaEff = c.s.nThetaEven
  znt : c.s.nZnT = c.s.nZeta * c.s.nThetaEff

theorem Full.zeta (h : Full c) : 1 ≤ c.s.nZeta := by have := h.nyq; have := h.ntor; omega

theorem kRev_range (h : Full c) {k : Int} (hk : 0 ≤ k ∧ k < c.s.nZeta) : 0 ≤ kRev c k ∧ kRev c k < c.s.nZeta := by
  have := h.zeta
  unfold kRev
  rw [Int.tmod_eq_emod_of_nonneg (by omega)]
  exact ⟨Int.emod_nonneg _ (by omega), Int.emod_lt_of_pos _ (by omega)⟩

theorem kRev_kRev (h : Full c) {k : Int} (hk : 0 ≤ k ∧ k < c.s.nZeta) : kRev c (kRev c k) = k := by
  have := h.zeta
  have hr := kRev_range h hk
  have e1 : kRev c k = (c.s.nZeta - k) % c.s.nZeta := Int.tmod_eq_emod_of_nonneg (by omega)
  have e2 : kRev c (kRev c k) = (c.s.nZeta - kRev c k) % c.s.nZeta := Int.tmod_eq_emod_of_nonneg (by omega)
  rw [e2, e1]
  by_cases e : k = 0
  · subst e; simp
  · rw [Int.emod_eq_of_lt (a := c.s.nZeta - k) (by omega) (by omega)]
    rw [show c.s.nZeta - (c.s.nZeta - k) = k by ring]
    exact Int.emod_eq_of_lt hk.1 hk.2

/-- position of a grid point -/
def cell (c : Ctx) (j0 j k l : Int) : Int := (j - j0) * c.s.nZnT + k * c.s.nThetaEff + l

theorem cell_eq (h : Full c) (j0 j k l : Int) : cell c j0 j k l = idxKl c j0 j k + l := by
  unfold cell idxKl
  rw [h.znt]; ring

theorem cell_inj (h : Full c) {j0 j k l j' k' l' : Int} (hk : 0 ≤ k ∧ k < c.s.nZeta) (hl : 0 ≤ l ∧ l < c.s.nThetaEven)
    (hk' : 0 ≤ k' ∧ k' < c.s.nZeta) (hl' : 0 ≤ l' ∧ l' < c.s.nThetaEven) (e : cell c j0 j k l = cell c j0 j' k' l') :
    j = j' ∧ k = k' ∧ l = l' := by
  rw [cell_eq h, cell_eq h] at e
  have := h.full
  exact idxKl_inj hk.1 hk.2 hk'.1 hk'.2 hl.1 (by omega) hl'.1 (by omega) e

/-- the two passes over one surface, for any selection of arrays -/
noncomputable def surfaceOf {C : Type} (c : Ctx) (ext : Int → Int → (C → Int → ℝ) → C → Int → ℝ) (comb : Int → (C → Int → ℝ) → C → Int → ℝ)
    (base : Int) (g : C → Int → ℝ) : C → Int → ℝ :=
  let g := forRange 0 c.s.nZeta (fun k g =>
    forRange c.s.nThetaReduced c.s.nThetaEven (fun l g =>
      ext (base + k * c.s.nThetaEff + l) (base + kRev c k * c.s.nThetaEff + (c.s.nThetaEven - l)) g) g) g
  forRange 0 c.s.nZeta (fun k g =>
    forRange 0 c.s.nThetaReduced (fun l g => comb (base + k * c.s.nThetaEff + l) g) g) g

/-- what a point of a selected array becomes -/
noncomputable def target {C : Type} (c : Ctx) (j0 : Int) (sgn : C → ℝ) (ga g : C → Int → ℝ) (a : C) (j k l : Int) : ℝ :=
  if l < c.s.nThetaReduced then g a (cell c j0 j k l) + ga a (cell c j0 j k l)
  else sgn a * (g a (cell c j0 j (kRev c k) (c.s.nThetaEven - l)) - ga a (cell c j0 j (kRev c k) (c.s.nThetaEven - l)))

section
variable {C : Type} {ext : Int → Int → (C → Int → ℝ) → C → Int → ℝ} {comb : Int → (C → Int → ℝ) → C → Int → ℝ} {sel : C → Prop}
  [DecidablePred sel] {sgn : C → ℝ} {ga : C → Int → ℝ}

theorem ext_pass (h : Full c) (hext : ∀ jl jr g a i, jl ≠ jr → ext jl jr g a i =
      if sel a ∧ i = jl then sgn a * (g a jr - ga a jr) else g a i) (j0 j : Int) (g : C → Int → ℝ) :
    let g1 := forRange 0 c.s.nZeta (fun k g =>
      forRange c.s.nThetaReduced c.s.nThetaEven (fun l g =>
        ext ((j - j0) * c.s.nZnT + k * c.s.nThetaEff + l) ((j - j0) * c.s.nZnT + kRev c k * c.s.nThetaEff + (c.s.nThetaEven - l)) g) g) g
    (∀ a k l, sel a → 0 ≤ k → k < c.s.nZeta → c.s.nThetaReduced ≤ l → l < c.s.nThetaEven →
      g1 a (cell c j0 j k l) = target c j0 sgn ga g a j k l) ∧
    (∀ a i, (∀ k l, 0 ≤ k → k < c.s.nZeta → c.s.nThetaReduced ≤ l → l < c.s.nThetaEven → i ≠ cell c j0 j k l) → g1 a i = g a i) ∧
    ∀ a i, ¬ sel a → g1 a i = g a i := by
  have hz := h.zeta
  have hred := h.red
  have hev := h.even
  -- the reduced interval keeps its values
  let P : Int → (C → Int → ℝ) → Prop := fun _ t => ∀ a k l, 0 ≤ k → k < c.s.nZeta → 0 ≤ l → l < c.s.nThetaReduced →
    t a (cell c j0 j k l) = g a (cell c j0 j k l)
  let Q : C → Int → ℝ → Prop := fun a i x => ∀ k l, 0 ≤ k → k < c.s.nZeta → c.s.nThetaReduced ≤ l → l < c.s.nThetaEven →
    i = cell c j0 j k l → x = target c j0 sgn ga g a j k l
  have inner : ∀ k t, 0 ≤ k → k < c.s.nZeta → P k t → _ := fun k t k0 k1 pt =>
    loop_sets (lo := c.s.nThetaReduced) (hi := c.s.nThetaEven) (fun l g =>
        ext ((j - j0) * c.s.nZnT + k * c.s.nThetaEff + l) ((j - j0) * c.s.nZnT + kRev c k * c.s.nThetaEff + (c.s.nThetaEven - l)) g)
      P (fun l a i => sel a ∧ i = cell c j0 j k l) Q (by
        intro l t l0 l1 pt
        obtain ⟨r0, r1⟩ := kRev_range h ⟨k0, k1⟩
        have hne : (j - j0) * c.s.nZnT + k * c.s.nThetaEff + l ≠
            (j - j0) * c.s.nZnT + kRev c k * c.s.nThetaEff + (c.s.nThetaEven - l) := by
          intro e
          have := (cell_inj h (j0 := j0) (j := j) (j' := j) ⟨k0, k1⟩ ⟨by omega, l1⟩ ⟨r0, r1⟩ (l' := c.s.nThetaEven - l) ⟨by omega, by omega⟩ e).2.2
          omega
        refine ⟨?_, ?_, ?_⟩
        · intro a k' l' k0' k1' l0' l1'
          rw [hext _ _ _ _ _ hne, if_neg, pt a k' l' k0' k1' l0' l1']
          rintro ⟨_, e⟩
          have := (cell_inj h ⟨k0', k1'⟩ ⟨l0', by omega⟩ ⟨k0, k1⟩ ⟨by omega, l1⟩ e).2.2
          omega
        · rintro a i ⟨hs, rfl⟩ k' l' k0' k1' l0' l1' e
          obtain ⟨_, rfl, rfl⟩ := cell_inj h ⟨k0, k1⟩ ⟨by omega, l1⟩ ⟨k0', k1'⟩ ⟨by omega, l1'⟩ e
          rw [hext _ _ _ _ _ hne, if_pos ⟨hs, rfl⟩]
          unfold target
          rw [if_neg (by omega)]
          rw [← pt a (kRev c k) (c.s.nThetaEven - l) r0 r1 (by omega) (by omega)]
          rfl
        · intro a i hn
          exact (hext _ _ _ _ _ hne).trans (if_neg hn)) t (by omega) pt
  have outer := loop_sets (lo := 0) (hi := c.s.nZeta) (fun k g =>
      forRange c.s.nThetaReduced c.s.nThetaEven (fun l g =>
        ext ((j - j0) * c.s.nZnT + k * c.s.nThetaEff + l) ((j - j0) * c.s.nZnT + kRev c k * c.s.nThetaEff + (c.s.nThetaEven - l)) g) g)
    P (fun k a i => ∃ l, c.s.nThetaReduced ≤ l ∧ l < c.s.nThetaEven ∧ (sel a ∧ i = cell c j0 j k l)) Q (by
      intro k t k0 k1 pt
      obtain ⟨i1, i2, i3⟩ := inner k t k0 k1 pt
      exact ⟨i1, i2, fun a i hn => i3 a i fun l l0 l1 hs => hn ⟨l, l0, l1, hs⟩⟩) g (by omega) (fun _ _ _ _ _ _ _ => rfl)
  obtain ⟨_, o2, o3⟩ := outer
  refine ⟨fun a k l hs k0 k1 l0 l1 => ?_, fun a i hn => ?_, fun a i hs => ?_⟩
  · exact o2 a _ ⟨k, k0, k1, l, l0, l1, hs, rfl⟩ k l k0 k1 l0 l1 rfl
  · refine o3 a i fun k k0 k1 => ?_
    rintro ⟨l, l0, l1, _, e⟩
    exact hn k l k0 k1 l0 l1 e
  · refine o3 a i fun k k0 k1 => ?_
    rintro ⟨l, _, _, hh, _⟩
    exact hs hh

theorem comb_pass (h : Full c) (hcomb : ∀ jl g a i, comb jl g a i = g a i + if sel a ∧ i = jl then ga a i else 0) (j0 j : Int)
    (g : C → Int → ℝ) :
    let g1 := forRange 0 c.s.nZeta (fun k g =>
      forRange 0 c.s.nThetaReduced (fun l g => comb ((j - j0) * c.s.nZnT + k * c.s.nThetaEff + l) g) g) g
    (∀ a k l, sel a → 0 ≤ k → k < c.s.nZeta → 0 ≤ l → l < c.s.nThetaReduced →
      g1 a (cell c j0 j k l) = g a (cell c j0 j k l) + ga a (cell c j0 j k l)) ∧
    (∀ a i, (∀ k l, 0 ≤ k → k < c.s.nZeta → 0 ≤ l → l < c.s.nThetaReduced → i ≠ cell c j0 j k l) → g1 a i = g a i) ∧
    ∀ a i, ¬ sel a → g1 a i = g a i := by
  have hred := h.red
  have hev := h.even
  intro g1
  have e : ∀ a i, g1 a i = g a i + ∑ k ∈ Ico 0 c.s.nZeta, ∑ l ∈ Ico 0 c.s.nThetaReduced,
      if sel a ∧ i = cell c j0 j k l then ga a i else 0 := fun a i =>
    forRange_addAll _ (fun k a i => ∑ l ∈ Ico 0 c.s.nThetaReduced, if sel a ∧ i = cell c j0 j k l then ga a i else 0)
      (fun k g a i _ _ => forRange_addAll _ (fun l a i => if sel a ∧ i = cell c j0 j k l then ga a i else 0)
        (fun l g a i _ _ => hcomb _ g a i) g a i) g a i
  refine ⟨fun a k l hs k0 k1 l0 l1 => ?_, fun a i hn => ?_, fun a i hs => ?_⟩
  · rw [e, Finset.sum_eq_single k, Finset.sum_eq_single l, if_pos ⟨hs, rfl⟩]
    · intro l' hl' hne
      rw [Finset.mem_Ico] at hl'
      exact if_neg fun hh => hne (cell_inj h ⟨k0, k1⟩ ⟨l0, by omega⟩ ⟨k0, k1⟩ ⟨hl'.1, by omega⟩ hh.2).2.2.symm
    · intro hh; exact absurd (Finset.mem_Ico.2 ⟨l0, l1⟩) hh
    · intro k' hk' hne
      rw [Finset.mem_Ico] at hk'
      refine Finset.sum_eq_zero fun l' hl' => ?_
      rw [Finset.mem_Ico] at hl'
      exact if_neg fun hh => hne (cell_inj h ⟨k0, k1⟩ ⟨l0, by omega⟩ hk' ⟨hl'.1, by omega⟩ hh.2).2.1.symm
    · intro hh; exact absurd (Finset.mem_Ico.2 ⟨k0, k1⟩) hh
  · rw [e, Finset.sum_eq_zero, add_zero]
    intro k hk
    refine Finset.sum_eq_zero fun l hl => ?_
    rw [Finset.mem_Ico] at hk hl
    exact if_neg fun hh => hn k l hk.1 hk.2 hl.1 hl.2 hh.2
  · rw [e, Finset.sum_eq_zero, add_zero]
    intro k _
    exact Finset.sum_eq_zero fun l _ => if_neg fun hh => hs hh.1

/-- one surface -/
theorem surfaceOf_eq (h : Full c) (hext : ∀ jl jr g a i, jl ≠ jr → ext jl jr g a i =
      if sel a ∧ i = jl then sgn a * (g a jr - ga a jr) else g a i)
    (hcomb : ∀ jl g a i, comb jl g a i = g a i + if sel a ∧ i = jl then ga a i else 0) (j0 j : Int) (g : C → Int → ℝ) :
    (∀ a k l, sel a → 0 ≤ k → k < c.s.nZeta → 0 ≤ l → l < c.s.nThetaEven →
      surfaceOf c ext comb ((j - j0) * c.s.nZnT) g a (cell c j0 j k l) = target c j0 sgn ga g a j k l) ∧
    (∀ a i, (∀ k l, 0 ≤ k → k < c.s.nZeta → 0 ≤ l → l < c.s.nThetaEven → i ≠ cell c j0 j k l) →
      surfaceOf c ext comb ((j - j0) * c.s.nZnT) g a i = g a i) ∧
    ∀ a i, ¬ sel a → surfaceOf c ext comb ((j - j0) * c.s.nZnT) g a i = g a i := by
  have hred := h.red
  have hev := h.even
  obtain ⟨e1, e2, e3⟩ := ext_pass (sgn := sgn) (ga := ga) (sel := sel) h hext j0 j g
  set g1 := forRange 0 c.s.nZeta (fun k g =>
      forRange c.s.nThetaReduced c.s.nThetaEven (fun l g =>
        ext ((j - j0) * c.s.nZnT + k * c.s.nThetaEff + l) ((j - j0) * c.s.nZnT + kRev c k * c.s.nThetaEff + (c.s.nThetaEven - l)) g) g) g with hg1
  obtain ⟨f1, f2, f3⟩ := comb_pass (ga := ga) (sel := sel) h hcomb j0 j g1
  refine ⟨fun a k l hs k0 k1 l0 l1 => ?_, fun a i hn => ?_, fun a i hs => ?_⟩
  · by_cases hl : l < c.s.nThetaReduced
    · refine Eq.trans (f1 a k l hs k0 k1 l0 hl) ?_
      unfold target
      rw [if_pos hl, e2]
      intro k' l' k0' k1' l0' l1' e
      have := (cell_inj h ⟨k0, k1⟩ ⟨l0, l1⟩ ⟨k0', k1'⟩ ⟨by omega, l1'⟩ e).2.2
      omega
    · refine Eq.trans (f2 a _ ?_) (e1 a k l hs k0 k1 (by omega) l1)
      intro k' l' k0' k1' l0' l1' e
      have := (cell_inj h ⟨k0, k1⟩ ⟨l0, l1⟩ ⟨k0', k1'⟩ ⟨by omega, by omega⟩ e).2.2
      omega
  · refine Eq.trans (f2 a i fun k l k0 k1 l0 l1 => hn k l k0 k1 l0 (by omega)) ?_
    exact e2 a i fun k l k0 k1 l0 l1 => hn k l k0 k1 (by omega) l1
  · exact Eq.trans (f3 a i hs) (e3 a i hs)

/-- all surfaces -/
theorem surfaces_eq (h : Full c) (hext : ∀ jl jr g a i, jl ≠ jr → ext jl jr g a i =
      if sel a ∧ i = jl then sgn a * (g a jr - ga a jr) else g a i)
    (hcomb : ∀ jl g a i, comb jl g a i = g a i + if sel a ∧ i = jl then ga a i else 0) (j0 lo hi : Int) (hle : lo ≤ hi) (g : C → Int → ℝ) :
    (∀ a j k l, sel a → lo ≤ j → j < hi → 0 ≤ k → k < c.s.nZeta → 0 ≤ l → l < c.s.nThetaEven →
      forRange lo hi (fun j g => surfaceOf c ext comb ((j - j0) * c.s.nZnT) g) g a (cell c j0 j k l) = target c j0 sgn ga g a j k l) ∧
    ∀ a i, ¬ sel a → forRange lo hi (fun j g => surfaceOf c ext comb ((j - j0) * c.s.nZnT) g) g a i = g a i := by
  have hred := h.red
  have hev := h.even
  have main := loop_sets (lo := lo) (hi := hi) (fun j g => surfaceOf c ext comb ((j - j0) * c.s.nZnT) g)
    (fun k t => ∀ a j k' l, k ≤ j → 0 ≤ k' → k' < c.s.nZeta → 0 ≤ l → l < c.s.nThetaEven → t a (cell c j0 j k' l) = g a (cell c j0 j k' l))
    (fun j a i => sel a ∧ ∃ k l, (0 ≤ k ∧ k < c.s.nZeta) ∧ (0 ≤ l ∧ l < c.s.nThetaEven) ∧ i = cell c j0 j k l)
    (fun a i x => ∀ j k l, 0 ≤ k → k < c.s.nZeta → 0 ≤ l → l < c.s.nThetaEven → i = cell c j0 j k l → x = target c j0 sgn ga g a j k l) (by
      intro j t hj hj' pt
      obtain ⟨s1, s2, s3⟩ := surfaceOf_eq (sgn := sgn) (ga := ga) (sel := sel) h hext hcomb j0 j t
      refine ⟨?_, ?_, ?_⟩
      · intro a j' k' l' hj0 k0 k1 l0 l1
        rw [s2, pt a j' k' l' (by omega) k0 k1 l0 l1]
        intro k l k0' k1' l0' l1' e
        have := (cell_inj h ⟨k0, k1⟩ ⟨l0, l1⟩ ⟨k0', k1'⟩ ⟨l0', l1'⟩ e).1
        omega
      · rintro a i ⟨hs, k, l, hk, hl, rfl⟩ j' k' l' k0 k1 l0 l1 e
        obtain ⟨rfl, rfl, rfl⟩ := cell_inj h hk hl ⟨k0, k1⟩ ⟨l0, l1⟩ e
        rw [s1 a k l hs k0 k1 l0 l1]
        obtain ⟨r0, r1⟩ := kRev_range h hk
        unfold target
        split
        · rw [pt a j k l (by omega) k0 k1 l0 l1]
        · rw [pt a j (kRev c k) (c.s.nThetaEven - l) (by omega) r0 r1 (by omega) (by omega)]
      · intro a i hn
        by_cases hs : sel a
        · refine s2 a i fun k l k0 k1 l0 l1 e => hn ⟨hs, k, l, ⟨k0, k1⟩, ⟨l0, l1⟩, e⟩
        · exact s3 a i hs) g hle (fun _ _ _ _ _ _ _ _ _ => rfl)
  obtain ⟨_, m2, m3⟩ := main
  refine ⟨fun a j k l hs j0' j1 k0 k1 l0 l1 => ?_, fun a i hs => m3 a i fun j _ _ hh => hs hh.1⟩
  exact m2 a _ ⟨j, j0', j1, hs, k, l, ⟨k0, k1⟩, ⟨l0, l1⟩, rfl⟩ j k l k0 k1 l0 l1 rfl

end

/-- sign of an array under the reflection of both angles -/
def parity : GArr → ℝ
  | .r1 | .zu | .lu | .zv | .lv => 1
  | .ru | .z1 | .rv => -1

/-- the arrays of a three-dimensional geometry -/
def isGeo : Arr → Bool
  | .geo _ _ => true
  | _ => false

def parityOf : Arr → ℝ
  | .geo a _ => parity a
  | .rCon => 1
  | .zCon => -1

theorem extendPoint_eq (h3 : c.s.lthreed = true) (ga : Arr → Int → ℝ) (jl jr : Int) (g : Arr → Int → ℝ) (a : Arr) (i : Int) (hne : jl ≠ jr) :
    extendPoint c ga jl jr g a i = if isGeo a = true ∧ i = jl then parityOf a * (g a jr - ga a jr) else g a i := by
  unfold extendPoint extEven extOdd
  have hne' : ¬ jr = jl := fun e => hne e.symm
  rw [if_pos h3]
  cases a with
  | geo a e =>
    by_cases hi : i = jl
    · cases a <;> cases e <;> simp [put_apply, hi, isGeo, parityOf, parity, hne']
      all_goals ring
    · cases a <;> cases e <;> simp [put_apply, hi, isGeo]
  | rCon => simp [put_apply, isGeo]
  | zCon => simp [put_apply, isGeo]

theorem combinePoint_eq (h3 : c.s.lthreed = true) (ga : Arr → Int → ℝ) (jl : Int) (g : Arr → Int → ℝ) (a : Arr) (i : Int) :
    combinePoint c ga jl g a i = g a i + if isGeo a = true ∧ i = jl then ga a i else 0 := by
  unfold combinePoint
  rw [if_pos h3]
  cases a with
  | geo a e =>
    by_cases hi : i = jl
    · cases a <;> cases e <;> simp [addTo_apply, hi, isGeo]
    · cases a <;> cases e <;> simp [addTo_apply, hi, isGeo]
  | rCon => simp [addTo_apply, isGeo]
  | zCon => simp [addTo_apply, isGeo]

/-- **`symrzl`**: on the reduced interval both parts are added, on the extended one their difference is reflected -/
theorem symrzl_eq (h : Full c) (h3 : c.s.lthreed = true) (ga g : Arr → Int → ℝ) (hr : c.r.nsMinF1 ≤ c.r.nsMaxF1)
    (hr' : c.r.nsMinF ≤ c.r.nsMaxFIncludingLcfs) {k l : Int} (hk : 0 ≤ k ∧ k < c.s.nZeta) (hl : 0 ≤ l ∧ l < c.s.nThetaEven) :
    (∀ a e j, c.r.nsMinF1 ≤ j → j < c.r.nsMaxF1 → symrzl c ga g (.geo a e) (cell c c.r.nsMinF1 j k l) =
      target c c.r.nsMinF1 parityOf ga g (.geo a e) j k l) ∧
    ∀ A, isGeo A = false → ∀ j, c.r.nsMinF ≤ j → j < c.r.nsMaxFIncludingLcfs → symrzl c ga g A (cell c c.r.nsMinF j k l) =
      target c c.r.nsMinF parityOf ga g A j k l := by
  obtain ⟨s1, s2⟩ := surfaces_eq (sgn := parityOf) (ga := ga) (sel := fun a => isGeo a = true) h
    (fun jl jr g a i hne => extendPoint_eq h3 ga jl jr g a i hne) (fun jl g a i => combinePoint_eq h3 ga jl g a i)
    c.r.nsMinF1 c.r.nsMinF1 c.r.nsMaxF1 hr g
  set g1 := forRange c.r.nsMinF1 c.r.nsMaxF1 (fun jF g => symrzlSurface c ga jF g) g with hg1
  obtain ⟨t1, t2⟩ := surfaces_eq (sgn := parityOf) (ga := ga) (sel := fun a => isGeo a = false) h
    (ext := fun jl jr g => extOdd ga jl jr .zCon (extEven ga jl jr .rCon g))
    (comb := fun jl g => addTo (addTo g .rCon jl (ga .rCon jl)) .zCon jl (ga .zCon jl))
    (by
      intro jl jr g a i hne
      have hne' : ¬ jr = jl := fun e => hne e.symm
      unfold extOdd extEven
      cases a with
      | geo a e => simp [put_apply, isGeo]
      | rCon => by_cases hi : i = jl <;> simp [put_apply, isGeo, hi, parityOf]
      | zCon =>
        by_cases hi : i = jl
        · simp [put_apply, isGeo, hi, parityOf, hne']; ring
        · simp [put_apply, isGeo, hi])
    (by
      intro jl g a i
      cases a with
      | geo a e => simp [addTo_apply, isGeo]
      | rCon => by_cases hi : i = jl <;> simp [addTo_apply, isGeo, hi]
      | zCon => by_cases hi : i = jl <;> simp [addTo_apply, isGeo, hi])
    c.r.nsMinF c.r.nsMinF c.r.nsMaxFIncludingLcfs hr' g1
  refine ⟨fun a e j hj hj' => ?_, fun A hA j hj hj' => ?_⟩
  · exact Eq.trans (t2 (.geo a e) _ (by simp [isGeo])) (s1 (.geo a e) j k l rfl hj hj' hk.1 hk.2 hl.1 hl.2)
  · refine Eq.trans (t1 A j k l hA hj hj' hk.1 hk.2 hl.1 hl.2) ?_
    unfold target
    have : ∀ i, g1 A i = g A i := fun i => s2 A i (by rw [hA]; simp)
    rw [this, this]

end Verif.Asym
