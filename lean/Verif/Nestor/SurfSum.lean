import Verif.Nestor.SurfSeries

/-! # What the loops of `SurfaceGeometry` compute -/
namespace Verif.Nestor
open Verif Finset Fourier

namespace SCtx
variable (c : SCtx)

/-- a share of the grid -/
structure Good : Prop where
  grid : GoodGrid c.s
  nfp : 1 ≤ c.s.nfp
  lo : 0 ≤ c.ztMin
  hi : c.ztMax ≤ (if c.s.lasym then c.s.nThetaEven else c.s.nThetaReduced) * c.s.nZeta

theorem kBody_apply (n l k : Int) (a : SArr) (f : Base × Der) (i : Int) : c.kBody n l k a f i = a f i
    + if c.kGate f (l * c.s.nZeta + k) ∧ i = c.pos f (l * c.s.nZeta + k) then c.kTab n k (c.mLoop n l) f else 0 := by
  unfold kBody
  split
  · rfl
  · rw [add_zero]

theorem pos_inj (f : Base × Der) {i j : Int} (h : c.pos f i = c.pos f j) : i = j := by
  obtain ⟨b, d⟩ := f
  cases d <;> (simp only [pos] at h; omega)

variable {c}

/-- the arrays after the loops over `n`, `l`, `k` -/
theorem transform_eq (g : c.Good) (old : SArr) {l k : Int} (hl0 : 0 ≤ l) (hl1 : l < c.s.nThetaReduced) (hk0 : 0 ≤ k) (hk1 : k < c.s.nZeta)
    (f : Base × Der) (hg : c.kGate f (l * c.s.nZeta + k) = true) :
    c.transform old f (c.pos f (l * c.s.nZeta + k)) = c.value f (thetaGrid c.s l) (zetaGrid c.s k) := by
  unfold transform
  rw [forRange_addAll _ (fun n f i => ∑ l ∈ Ico 0 c.s.nThetaReduced, ∑ k ∈ Ico 0 c.s.nZeta,
    if c.kGate f (l * c.s.nZeta + k) ∧ i = c.pos f (l * c.s.nZeta + k) then c.kTab n k (c.mLoop n l) f else 0) ?_]
  · have hz : c.zero old f (c.pos f (l * c.s.nZeta + k)) = 0 := by
      unfold zero
      rw [if_neg]
      unfold kGate at hg
      simp only [Bool.and_eq_true, Bool.or_eq_true, Bool.not_eq_true'] at hg ⊢
      rcases hg with ⟨⟨h1, _⟩, h3⟩
      rintro (⟨h, h'⟩ | ⟨h, h'⟩)
      · rcases h1 with h1 | h1
        · rw [h1] at h; exact absurd h (by decide)
        · rw [h1] at h'; exact absurd h' (by decide)
      · rcases h3 with h1 | h1
        · rw [h1] at h; exact absurd h (by decide)
        · rw [h1] at h'; exact absurd h' (by decide)
    rw [hz, zero_add]
    unfold value Ser.eval
    refine sum_congr rfl fun n hn => ?_
    obtain ⟨n0, n1⟩ := mem_Ico.1 hn
    rw [sum_eq_single_of_mem l (mem_Ico.2 ⟨hl0, hl1⟩), sum_eq_single_of_mem k (mem_Ico.2 ⟨hk0, hk1⟩)]
    · rw [if_pos ⟨hg, rfl⟩]
      refine c.kTab_eq g.grid n0 (by omega) hl0 hl1 hk0 hk1 f ?_
      unfold kGate at hg
      simp only [Bool.and_eq_true, Bool.or_eq_true, Bool.not_eq_true', decide_eq_true_eq] at hg
      obtain ⟨⟨h1, h2⟩, _⟩ := hg
      by_cases hlas : c.s.lasym = true
      · exact Or.inl hlas
      · refine Or.inr ⟨by tauto, ?_⟩
        rcases h2 with (h2 | h2) | ⟨h2, h3⟩
        · exact Or.inl h2
        · exact absurd h2 hlas
        · refine Or.inr ⟨?_, ?_⟩
          · have g1 := g.lo
            rw [Int.tdiv_eq_ediv_of_nonneg g1]
            have : c.ztMin / c.s.nZeta < l + 1 := Int.ediv_lt_of_lt_mul (by omega) (by nlinarith)
            omega
          · have g1 := g.lo
            rw [Int.tdiv_eq_ediv_of_nonneg (by omega)]
            exact (Int.le_ediv_iff_mul_le (by omega)).2 (by omega)
    · intro k' hk' hne
      obtain ⟨k0, k1⟩ := mem_Ico.1 hk'
      rw [if_neg]
      rintro ⟨_, h⟩
      have := flat_inj hk0 hk1 k0 k1 (c.pos_inj f h)
      exact hne this.2.symm
    · intro l' hl' hne
      refine sum_eq_zero fun k' hk' => ?_
      obtain ⟨k0, k1⟩ := mem_Ico.1 hk'
      rw [if_neg]
      rintro ⟨_, h⟩
      have := flat_inj hk0 hk1 k0 k1 (c.pos_inj f h)
      exact hne this.1.symm
  · intro n a f i _ _
    rw [forRange_addAll _ (fun l f i => ∑ k ∈ Ico 0 c.s.nZeta,
      if c.kGate f (l * c.s.nZeta + k) ∧ i = c.pos f (l * c.s.nZeta + k) then c.kTab n k (c.mLoop n l) f else 0) ?_]
    intro l a f i _ _
    rw [forRange_addAll _ (fun k f i =>
      if c.kGate f (l * c.s.nZeta + k) ∧ i = c.pos f (l * c.s.nZeta + k) then c.kTab n k (c.mLoop n l) f else 0) ?_]
    intro k a f i _ _
    exact c.kBody_apply n l k a f i

/-- reflected row and column -/
theorem rev_row (g : GoodGrid c.s) {l : Int} (h0 : 1 ≤ l) (h1 : l < c.s.nThetaReduced - 1) :
    (c.s.nThetaEven - l).tmod c.s.nThetaEven = c.s.nThetaEven - l := by
  have := g.even
  rw [Int.tmod_eq_emod_of_nonneg (by omega), Int.emod_eq_of_lt (by omega) (by omega)]

theorem rev_col {N k : Int} (h0 : 0 ≤ k) (h1 : k < N) : (N - k).tmod N = if k = 0 then 0 else N - k := by
  rw [Int.tmod_eq_emod_of_nonneg (by omega)]
  split
  · rename_i h; subst h; simp
  · rw [Int.emod_eq_of_lt (by omega) (by omega)]

theorem rev_col_inj {N k k' : Int} (h0 : 0 ≤ k) (h1 : k < N) (h0' : 0 ≤ k') (h1' : k' < N) (h : (N - k).tmod N = (N - k').tmod N) : k = k' := by
  rw [rev_col h0 h1, rev_col h0' h1'] at h
  split at h <;> split at h <;> omega

theorem rev_col_range {N k : Int} (h0 : 0 ≤ k) (h1 : k < N) : 0 ≤ (N - k).tmod N ∧ (N - k).tmod N < N := by
  rw [rev_col h0 h1]
  split <;> omega

/-- the loops which write to the reflected points leave the first half as it is and apply `w` at every reflected point -/
theorem mirror_eq (g : GoodGrid c.s) {F : Type} (w : (F → Int → ℝ) → Int → F → ℝ → ℝ)
    (hw : ∀ (s t : F → Int → ℝ) kl, kl < c.s.nThetaReduced * c.s.nZeta → (∀ f i, i < c.s.nThetaReduced * c.s.nZeta → s f i = t f i) →
      ∀ f x, w s kl f x = w t kl f x) (a : F → Int → ℝ) :
    (∀ f i, i < c.s.nThetaReduced * c.s.nZeta → c.mirror w a f i = a f i) ∧
    ∀ l k, 1 ≤ l → l < c.s.nThetaReduced - 1 → 0 ≤ k → k < c.s.nZeta → ∀ f,
      c.mirror w a f ((c.s.nThetaEven - l) * c.s.nZeta + (c.s.nZeta - k).tmod c.s.nZeta)
        = w a (l * c.s.nZeta + k) f (a f ((c.s.nThetaEven - l) * c.s.nZeta + (c.s.nZeta - k).tmod c.s.nZeta)) := by
  have gz := g.nz
  have ge := g.even
  have gp := g.nyqP
  have gm := g.mpol
  -- one row
  have row (l : Int) (h0 : 1 ≤ l) (h1 : l < c.s.nThetaReduced - 1) (b : F → Int → ℝ) :
      (∀ f i, (∀ k, 0 ≤ k → k < c.s.nZeta → i ≠ (c.s.nThetaEven - l) * c.s.nZeta + k) → forRange 0 c.s.nZeta (fun k a => fun f i =>
        if i = (c.s.nThetaEven - l) * c.s.nZeta + (c.s.nZeta - k).tmod c.s.nZeta then w a (l * c.s.nZeta + k) f (a f i) else a f i) b f i = b f i) ∧
      ∀ k, 0 ≤ k → k < c.s.nZeta → ∀ f, forRange 0 c.s.nZeta (fun k a => fun f i =>
        if i = (c.s.nThetaEven - l) * c.s.nZeta + (c.s.nZeta - k).tmod c.s.nZeta then w a (l * c.s.nZeta + k) f (a f i) else a f i) b f
          ((c.s.nThetaEven - l) * c.s.nZeta + (c.s.nZeta - k).tmod c.s.nZeta)
        = w b (l * c.s.nZeta + k) f (b f ((c.s.nThetaEven - l) * c.s.nZeta + (c.s.nZeta - k).tmod c.s.nZeta)) := by
    have low (i : Int) (hi : i < c.s.nThetaReduced * c.s.nZeta) (k : Int) (h0 : 0 ≤ k) (h1 : k < c.s.nZeta) :
        i ≠ (c.s.nThetaEven - l) * c.s.nZeta + k := by
      have : c.s.nThetaReduced * c.s.nZeta ≤ (c.s.nThetaEven - l) * c.s.nZeta := mul_le_mul_of_nonneg_right (by omega) (by omega)
      omega
    have := forRange_inv (lo := 0) (hi := c.s.nZeta) (by omega) (fun k a => fun f i =>
        if i = (c.s.nThetaEven - l) * c.s.nZeta + (c.s.nZeta - k).tmod c.s.nZeta then w a (l * c.s.nZeta + k) f (a f i) else a f i) b
      (fun j t => (∀ f i, (∀ k, 0 ≤ k → k < j → i ≠ (c.s.nThetaEven - l) * c.s.nZeta + (c.s.nZeta - k).tmod c.s.nZeta) → t f i = b f i) ∧
        ∀ k, 0 ≤ k → k < j → ∀ f, t f ((c.s.nThetaEven - l) * c.s.nZeta + (c.s.nZeta - k).tmod c.s.nZeta)
          = w b (l * c.s.nZeta + k) f (b f ((c.s.nThetaEven - l) * c.s.nZeta + (c.s.nZeta - k).tmod c.s.nZeta)))
      ⟨fun _ _ _ => rfl, fun k h h' => by omega⟩ (by
        intro j t hj hj' ⟨ih1, ih2⟩
        constructor
        · intro f i hi
          simp only []
          rw [if_neg (hi j (by omega) (by omega))]
          exact ih1 f i fun k h h' => hi k h (by omega)
        · intro k hk hk' f
          simp only []
          by_cases e : k = j
          · subst e
            rw [if_pos rfl]
            have old : ∀ f i, (∀ k', 0 ≤ k' → k' < k → i ≠ (c.s.nThetaEven - l) * c.s.nZeta + (c.s.nZeta - k').tmod c.s.nZeta) → t f i = b f i := ih1
            rw [old f _ fun k' h h' e => by have := rev_col_inj hk hj' h (by omega) (by omega); omega]
            refine hw t b _ ?_ ?_ f _
            · have : (l + 1) * c.s.nZeta ≤ c.s.nThetaReduced * c.s.nZeta := mul_le_mul_of_nonneg_right (by omega) (by omega)
              nlinarith
            · intro f i hi
              exact old f i fun k' h h' => low i hi _ (rev_col_range h (by omega)).1 (rev_col_range h (by omega)).2
          · rw [if_neg]
            · exact ih2 k hk (by omega) f
            · intro h
              have := rev_col_inj hk (by omega) hj hj' (by omega)
              exact e this)
    refine ⟨fun f i hi => this.1 f i fun k h h' => hi _ (rev_col_range h h').1 (rev_col_range h h').2, this.2⟩
  unfold mirror
  have key := forRange_inv (lo := 1) (hi := c.s.nThetaReduced - 1) (by omega) (fun l a =>
    let lRev := (c.s.nThetaEven - l).tmod c.s.nThetaEven
    forRange 0 c.s.nZeta (fun k a =>
      let kRev := (c.s.nZeta - k).tmod c.s.nZeta
      fun f i => if i = lRev * c.s.nZeta + kRev then w a (l * c.s.nZeta + k) f (a f i) else a f i) a) a
    (fun j t => (∀ f i, (∀ l k, 1 ≤ l → l < j → 0 ≤ k → k < c.s.nZeta → i ≠ (c.s.nThetaEven - l) * c.s.nZeta + k) → t f i = a f i) ∧
      ∀ l k, 1 ≤ l → l < j → 0 ≤ k → k < c.s.nZeta → ∀ f, t f ((c.s.nThetaEven - l) * c.s.nZeta + (c.s.nZeta - k).tmod c.s.nZeta)
        = w a (l * c.s.nZeta + k) f (a f ((c.s.nThetaEven - l) * c.s.nZeta + (c.s.nZeta - k).tmod c.s.nZeta)))
    ⟨fun _ _ _ => rfl, fun l k h h' => by omega⟩ (by
      intro j t hj hj' ⟨ih1, ih2⟩
      simp only []
      rw [rev_row g hj hj']
      obtain ⟨r1, r2⟩ := row j hj hj' t
      have low (i : Int) (hi : i < c.s.nThetaReduced * c.s.nZeta) (l k : Int) (hl : l < c.s.nThetaReduced - 1) (h0 : 0 ≤ k) :
          i ≠ (c.s.nThetaEven - l) * c.s.nZeta + k := by
        have : c.s.nThetaReduced * c.s.nZeta ≤ (c.s.nThetaEven - l) * c.s.nZeta := mul_le_mul_of_nonneg_right (by omega) (by omega)
        omega
      constructor
      · intro f i hi
        rw [r1 f i fun k h h' => hi j k hj (by omega) h h']
        exact ih1 f i fun l k h h' => hi l k h (by omega)
      · intro l k hl hl' hk hk' f
        obtain ⟨q0, q1⟩ := rev_col_range hk hk'
        by_cases e : l = j
        · subst e
          rw [r2 k hk hk' f, ih1 f _ fun l' k' h h' g0 g1 e => by have := (flat_inj q0 q1 g0 g1 e).1; omega]
          refine hw t a _ ?_ ?_ f _
          · have : (l + 1) * c.s.nZeta ≤ c.s.nThetaReduced * c.s.nZeta := mul_le_mul_of_nonneg_right (by omega) (by omega)
            nlinarith
          · intro f i hi
            exact ih1 f i fun l' k' h h' g0 g1 => low i hi l' k' (by omega) g0
        · rw [r1 f _ fun k' g0 g1 e' => by have := (flat_inj q0 q1 g0 g1 e').1; omega]
          exact ih2 l k hl (by omega) hk hk' f)
  refine ⟨fun f i hi => key.1 f i fun l k h h' h0 h1 => ?_, key.2⟩
  have : c.s.nThetaReduced * c.s.nZeta ≤ (c.s.nThetaEven - l) * c.s.nZeta := mul_le_mul_of_nonneg_right (by omega) (by omega)
  omega

theorem addAsym_apply (g : GoodGrid c.s) (a : SArr) (f : Base × Der) (hf : f.1.asym = false) (i : Int)
    (hd : f.2.second = true → c.fullUpdate = true) :
    c.addAsym a f i = if 0 ≤ i ∧ i < c.s.nThetaReduced * c.s.nZeta then a f i + a (companion f.1, f.2) i else a f i := by
  have gz := g.nz
  have hc : (companion f.1).asym = true := by obtain ⟨b, d⟩ := f; cases b <;> rfl
  have hn : ¬ (f.1.asym = true ∨ f.2.second = true ∧ ¬ c.fullUpdate = true) := by rw [hf]; simp; exact hd
  -- the pair of values evolves on its own
  have key := forRange_map (lo := 0) (hi := c.s.nThetaReduced) (fun l a => forRange 0 c.s.nZeta (fun k a => fun f i =>
    if f.1.asym ∨ (f.2.second ∧ ¬ c.fullUpdate) then a f i
    else if i = l * c.s.nZeta + k then a f i + a (companion f.1, f.2) i else a f i) a)
    (fun l (p : ℝ × ℝ) => forRange 0 c.s.nZeta (fun k (p : ℝ × ℝ) => if i = l * c.s.nZeta + k then (p.1 + p.2, p.2) else p) p)
    (fun a : SArr => (a f i, a (companion f.1, f.2) i)) (by
      intro l a
      exact forRange_map _ _ (fun a : SArr => (a f i, a (companion f.1, f.2) i)) (by
        intro k a
        simp only []
        rw [if_neg hn, if_pos (Or.inl hc)]
        split <;> rfl) a) a
  have key' := congrArg Prod.fst key
  unfold addAsym
  rw [show (forRange 0 c.s.nThetaReduced (fun l a => forRange 0 c.s.nZeta (fun k a => fun f i =>
    if f.1.asym = true ∨ (f.2.second = true ∧ ¬ c.fullUpdate = true) then a f i
    else if i = l * c.s.nZeta + k then a f i + a (companion f.1, f.2) i else a f i) a) a) f i = _ from key']
  by_cases h : 0 ≤ i ∧ i < c.s.nThetaReduced * c.s.nZeta
  · rw [if_pos h]
    have hdm := Int.mul_ediv_add_emod i c.s.nZeta
    have m0 := Int.emod_nonneg i (show c.s.nZeta ≠ 0 by omega)
    have m1 := Int.emod_lt_of_pos i (show 0 < c.s.nZeta by omega)
    have d0 : 0 ≤ i / c.s.nZeta := Int.ediv_nonneg h.1 (by omega)
    have d1 : i / c.s.nZeta < c.s.nThetaReduced := Int.ediv_lt_of_lt_mul (by omega) h.2
    have e : i = i / c.s.nZeta * c.s.nZeta + i % c.s.nZeta := by rw [mul_comm]; exact hdm.symm
    rw [forRange_only d0 d1]
    · rw [forRange_only m0 m1]
      · rw [if_pos e]
      · intro j p j0 j1 hne
        rw [if_neg]
        intro h'
        exact hne (flat_inj j0 j1 m0 m1 (h'.symm.trans e)).2
    · intro l p l0 l1 hne
      refine forRange_none _ (fun j p j0 j1 => ?_) _
      rw [if_neg]
      intro h'
      exact hne (flat_inj j0 j1 m0 m1 (h'.symm.trans e)).1
  · rw [if_neg h, forRange_none]
    intro l p l0 l1
    refine forRange_none _ (fun j p j0 j1 => ?_) _
    rw [if_neg]
    rintro rfl
    apply h
    have : (l + 1) * c.s.nZeta ≤ c.s.nThetaReduced * c.s.nZeta := mul_le_mul_of_nonneg_right (by omega) (by omega)
    constructor
    · positivity
    · nlinarith

variable (c) in
/-- the series of `R` (`.r`) and `Z` (`.z`) with the asymmetric part -/
noncomputable def full (b : Base) : Ser := if c.s.lasym then (c.base b).add (c.base (companion b)) else c.base b

theorem derive_add (S T : Ser) (d : Der) : c.derive (S.add T) d = (c.derive S d).add (c.derive T d) := by
  cases d <;> first | rfl | (unfold derive Ser.add; simp only [Ser.dθ, Ser.dζ, Ser.smul]; ext <;> (try simp only []) <;> (try ring))

theorem smul_even {S : Ser} (h : S.Even) (a : ℝ) : (S.smul a).Even := ⟨fun n m => by simp [Ser.smul, h.1], fun n m => by simp [Ser.smul, h.2]⟩
theorem smul_odd {S : Ser} (h : S.Odd) (a : ℝ) : (S.smul a).Odd := ⟨fun n m => by simp [Ser.smul, h.1], fun n m => by simp [Ser.smul, h.2]⟩

theorem derive_even {S : Ser} (h : S.Even) : (c.derive S .b).Even ∧ (c.derive S .u).Odd ∧ (c.derive S .v).Odd ∧ (c.derive S .uu).Even ∧
    (c.derive S .uv).Even ∧ (c.derive S .vv).Even :=
  ⟨h, Ser.even_dθ h, smul_odd (Ser.even_dζ h) _, Ser.odd_dθ (Ser.even_dθ h), smul_even (Ser.odd_dζ (Ser.even_dθ h)) _,
    smul_even (Ser.odd_dζ (Ser.even_dζ h)) _⟩
theorem derive_odd {S : Ser} (h : S.Odd) : (c.derive S .b).Odd ∧ (c.derive S .u).Even ∧ (c.derive S .v).Even ∧ (c.derive S .uu).Odd ∧
    (c.derive S .uv).Odd ∧ (c.derive S .vv).Odd :=
  ⟨h, Ser.odd_dθ h, smul_even (Ser.odd_dζ h) _, Ser.even_dθ (Ser.odd_dθ h), smul_odd (Ser.even_dζ (Ser.odd_dθ h)) _,
    smul_odd (Ser.even_dζ (Ser.odd_dζ h)) _⟩

theorem parity (f : Base × Der) (hf : f.1.asym = false) :
    (even f.1 f.2 = true ∧ (c.derive (c.base f.1) f.2).Even ∧ (c.derive (c.base (companion f.1)) f.2).Odd) ∨
    (even f.1 f.2 = false ∧ (c.derive (c.base f.1) f.2).Odd ∧ (c.derive (c.base (companion f.1)) f.2).Even) := by
  have r : (c.base .r).Even := ⟨fun _ _ => rfl, fun _ _ => rfl⟩
  have z : (c.base .z).Odd := ⟨fun _ _ => rfl, fun _ _ => rfl⟩
  have rA : (c.base .rA).Odd := ⟨fun _ _ => rfl, fun _ _ => rfl⟩
  have zA : (c.base .zA).Even := ⟨fun _ _ => rfl, fun _ _ => rfl⟩
  obtain ⟨r1, r2, r3, r4, r5, r6⟩ := derive_even (c := c) r
  obtain ⟨z1, z2, z3, z4, z5, z6⟩ := derive_odd (c := c) z
  obtain ⟨s1, s2, s3, s4, s5, s6⟩ := derive_odd (c := c) rA
  obtain ⟨y1, y2, y3, y4, y5, y6⟩ := derive_even (c := c) zA
  obtain ⟨b, d⟩ := f
  cases b
  · cases d
    exacts [Or.inl ⟨rfl, r1, s1⟩, Or.inr ⟨rfl, r2, s2⟩, Or.inr ⟨rfl, r3, s3⟩, Or.inl ⟨rfl, r4, s4⟩, Or.inl ⟨rfl, r5, s5⟩, Or.inl ⟨rfl, r6, s6⟩]
  · cases d
    exacts [Or.inr ⟨rfl, z1, y1⟩, Or.inl ⟨rfl, z2, y2⟩, Or.inl ⟨rfl, z3, y3⟩, Or.inr ⟨rfl, z4, y4⟩, Or.inr ⟨rfl, z5, y5⟩, Or.inr ⟨rfl, z6, y6⟩]
  · simp [Base.asym] at hf
  · simp [Base.asym] at hf

/-- the angles of the reflected point -/
theorem theta_rev (g : GoodGrid c.s) (l : Int) : thetaGrid c.s (c.s.nThetaEven - l) = (1 : Int) * (2 * Real.pi) - thetaGrid c.s l := by
  have hE : (c.s.nThetaEven : ℝ) ≠ 0 := by
    have := g.even; have := g.nyqP; have := g.mpol
    have : c.s.nThetaEven ≠ 0 := by omega
    exact_mod_cast this
  unfold thetaGrid
  push_cast
  field_simp

theorem zeta_rev (g : GoodGrid c.s) {k : Int} (h0 : 0 ≤ k) (h1 : k < c.s.nZeta) :
    zetaGrid c.s ((c.s.nZeta - k).tmod c.s.nZeta) = (if k = 0 then 0 else 1 : Int) * (2 * Real.pi) - zetaGrid c.s k := by
  have hE : (c.s.nZeta : ℝ) ≠ 0 := by
    have := g.nz
    have : c.s.nZeta ≠ 0 := by omega
    exact_mod_cast this
  rw [rev_col h0 h1]
  unfold zetaGrid
  by_cases h : k = 0
  · rw [if_pos h, if_pos h, h]
    simp
  · rw [if_neg h, if_neg h]
    push_cast
    field_simp

theorem rev_rev {N k : Int} (h0 : 0 ≤ k) (h1 : k < N) : (N - (N - k).tmod N).tmod N = k := by
  obtain ⟨a, b⟩ := rev_col_range h0 h1
  rw [rev_col a b, rev_col h0 h1]
  split <;> (split at * <;> omega)

theorem reflected_local (s t : SArr) (kl : Int) (h : kl < c.s.nThetaReduced * c.s.nZeta)
    (hst : ∀ f i, i < c.s.nThetaReduced * c.s.nZeta → s f i = t f i) (f : Base × Der) (x : ℝ) : c.reflected s kl f x = c.reflected t kl f x := by
  unfold reflected
  rw [hst f kl h, hst _ kl h]

/-- **every array of `inverseDFT`** holds the value, or the derivative, of the series at its points -/
theorem field_eq (g : c.Good) (old : SArr) (f : Base × Der) (hf : f.1.asym = false) {l k : Int} (hl0 : 0 ≤ l)
    (hl1 : l < if c.s.lasym then c.s.nThetaEven else c.s.nThetaReduced) (hk0 : 0 ≤ k) (hk1 : k < c.s.nZeta)
    (h1 : f.2 = .b ∨ c.s.lasym = true ∨ c.ztMin ≤ l * c.s.nZeta + k ∧ l * c.s.nZeta + k < c.ztMax)
    (h2 : f.2.second = true → c.fullUpdate = true) :
    c.inverseDFT old f (c.pos f (l * c.s.nZeta + k)) = (c.derive (c.full f.1) f.2).eval c.s.ntor c.s.mpol (thetaGrid c.s l) (zetaGrid c.s k) := by
  have gate (f' : Base × Der) (e : f'.2 = f.2) (ha : f'.1.asym = true → c.s.lasym = true) : c.kGate f' (l * c.s.nZeta + k) = true := by
    unfold kGate
    rw [e]
    simp only [Bool.and_eq_true, Bool.or_eq_true, Bool.not_eq_true', decide_eq_true_eq]
    refine ⟨⟨?_, by tauto⟩, ?_⟩
    · cases h : f'.1.asym
      · exact Or.inl rfl
      · exact Or.inr (ha h)
    · cases h : f.2.second
      · exact Or.inl rfl
      · exact Or.inr (h2 h)
  unfold inverseDFT full
  by_cases hla : c.s.lasym = true
  · rw [if_pos hla, if_pos hla]
    rw [if_pos hla] at hl1
    have ge := g.grid.even
    have gz := g.grid.nz
    obtain ⟨m1, m2⟩ := mirror_eq g.grid c.reflected reflected_local (c.transform old)
    have hpos (f : Base × Der) (i : Int) : c.pos f i = i := by
      obtain ⟨b, d⟩ := f
      cases d <;> simp [pos, derivOffset, hla]
    have gateA (f' : Base × Der) (e : f'.2 = f.2) (kl : Int) : c.kGate f' kl = true := by
      unfold kGate
      rw [e]
      simp only [Bool.and_eq_true, Bool.or_eq_true, Bool.not_eq_true', decide_eq_true_eq]
      refine ⟨⟨Or.inr hla, Or.inl (Or.inr hla)⟩, ?_⟩
      cases h : f.2.second
      · exact Or.inl rfl
      · exact Or.inr (h2 h)
    have tr (f' : Base × Der) (e : f'.2 = f.2) {l k : Int} (a : 0 ≤ l) (b : l < c.s.nThetaReduced) (a' : 0 ≤ k) (b' : k < c.s.nZeta) :
        c.transform old f' (l * c.s.nZeta + k) = c.value f' (thetaGrid c.s l) (zetaGrid c.s k) := by
      have := transform_eq g old a b a' b' f' (gateA f' e _)
      rwa [hpos] at this
    rw [hpos, addAsym_apply g.grid _ f hf _ h2, derive_add, Ser.eval_add]
    by_cases hl : l < c.s.nThetaReduced
    · have : (l + 1) * c.s.nZeta ≤ c.s.nThetaReduced * c.s.nZeta := mul_le_mul_of_nonneg_right (by omega) (by omega)
      have hi : l * c.s.nZeta + k < c.s.nThetaReduced * c.s.nZeta := by nlinarith
      have hp : 0 ≤ l * c.s.nZeta + k := by positivity
      rw [if_pos ⟨hp, hi⟩, m1 _ _ hi, m1 _ _ hi, tr f rfl hl0 hl hk0 hk1, tr (companion f.1, f.2) rfl hl0 hl hk0 hk1]
      rfl
    · have : c.s.nThetaReduced * c.s.nZeta ≤ l * c.s.nZeta := mul_le_mul_of_nonneg_right (by omega) (by omega)
      rw [if_neg (by omega)]
      obtain ⟨q0, q1⟩ := rev_col_range hk0 hk1
      have hm := m2 (c.s.nThetaEven - l) ((c.s.nZeta - k).tmod c.s.nZeta) (by omega) (by omega) q0 q1 f
      rw [rev_rev hk0 hk1, show c.s.nThetaEven - (c.s.nThetaEven - l) = l by ring] at hm
      rw [hm]
      unfold reflected
      rw [if_neg (by rw [hf]; simp; exact h2), tr f rfl (by omega) (by omega) q0 q1, tr (companion f.1, f.2) rfl (by omega) (by omega) q0 q1]
      have et := theta_rev g.grid (c.s.nThetaEven - l)
      rw [show c.s.nThetaEven - (c.s.nThetaEven - l) = l by ring] at et
      have ez := zeta_rev g.grid q0 q1
      rw [rev_rev hk0 hk1] at ez
      rw [et, ez]
      unfold value
      simp only []
      rcases parity (c := c) f hf with ⟨p1, p2, p3⟩ | ⟨p1, p2, p3⟩
      · rw [if_pos p1, Ser.even_reflect _ _ p2, Ser.odd_reflect _ _ p3]
        ring
      · rw [if_neg (by rw [p1]; decide), Ser.odd_reflect _ _ p2, Ser.even_reflect _ _ p3]
  · rw [if_neg hla, if_neg hla]
    rw [if_neg hla] at hl1
    exact transform_eq g old hl0 hl1 hk0 hk1 f (gate f rfl fun h => by rw [hf] at h; exact absurd h (by decide))

end SCtx
end Verif.Nestor
