import Verif.Output.WoutFile
import Verif.Output.WoutProps
import Verif.Profiles.Props

/-! # Scalars, profiles and histories of the output file (C94) -/
namespace Verif.Output
open Verif Verif.Profiles Verif.Fourier Verif.Radial Finset

/-! ## profile coefficients -/

theorem coef_pad (c : RVec) (hc : 0 ≤ c.n) (N : Int) (i : Int) : coef (padVector (nonEmptyOr c 0) N 0) i = coef c i := by
  unfold padVector nonEmptyOr coef
  by_cases h0 : c.n > 0
  · simp only [h0, if_true]
    split_ifs with h1 h2 h3 h4 h5 h6 h7 <;> first | rfl | (exfalso; simp_all; done) | (simp at *; omega) | skip
  · have : c.n = 0 := by omega
    simp only [this, if_false, lt_irrefl, gt_iff_lt]
    have e : ¬ (i ≥ 0 ∧ i < 0) := by omega
    rw [if_neg e]
    split_ifs <;> simp_all

theorem coef_sum (c : RVec) (f : ℕ → ℝ → ℝ) (hf : ∀ k, f k 0 = 0) (K : ℕ) (hK : c.n.toNat ≤ K) :
    ∑ k ∈ range c.n.toNat, f k (c.v k) = ∑ k ∈ range K, f k (coef c k) := by
  rw [← sum_subset (range_subset_range.2 hK)]
  · refine sum_congr rfl (fun k hk => ?_)
    have : k < c.n.toNat := mem_range.1 hk
    unfold coef
    rw [if_pos (by omega)]
  · intro k _ hk
    have : ¬ k < c.n.toNat := fun h => hk (mem_range.2 h)
    unfold coef
    rw [if_neg (by omega), hf]

theorem same_series {c d : RVec} (h : ∀ i, coef c i = coef d i) (x : ℝ) (b : Bool) : evalPowerSeries c x b = evalPowerSeries d x b := by
  have key (f : ℕ → ℝ → ℝ) (hf : ∀ k, f k 0 = 0) : ∑ k ∈ range c.n.toNat, f k (c.v k) = ∑ k ∈ range d.n.toNat, f k (d.v k) := by
    rw [coef_sum c f hf (max c.n.toNat d.n.toNat) (le_max_left _ _), coef_sum d f hf (max c.n.toNat d.n.toNat) (le_max_right _ _)]
    simp only [h]
  cases b
  · rw [C30_power_series, C30_power_series]
    exact key (fun k v => v * x ^ k) (fun k => zero_mul _)
  · rw [evalPowerSeries_int, evalPowerSeries_int]
    exact key (fun k v => v / (k + 1) * x ^ (k + 1)) (fun k => by simp)

/-- **C94** (profile coefficients): the coefficients in the output file have at least 21 elements and describe the same profile: every coefficient has
    the same value, those behind the end being zero, and the power series and its integral are unchanged. -/
theorem C94_coefficients (c : RVec) (hc : 0 ≤ c.n) :
    21 ≤ (woutCoef c).n ∧ (∀ i, coef (woutCoef c) i = coef c i) ∧
    (∀ x b, evalPowerSeries (woutCoef c) x b = evalPowerSeries c x b) := by
  refine ⟨?_, coef_pad c hc 21, same_series (coef_pad c hc 21)⟩
  unfold woutCoef padVector
  split_ifs <;> simp_all

/-- **C94** (spline knots): when the knots of the input are not negative, the entries of `aux_s` in the output file that are not negative are the knots of the
    input, in the same places, and `aux_f` holds the values there; there are at least 101 entries. -/
theorem C94_knots (c d : RVec) (hc : 0 ≤ c.n) (hd : d.n = c.n) (hs : ∀ i, 0 ≤ i → i < c.n → 0 ≤ c.v i) :
    101 ≤ (woutAuxS c).n ∧ (woutAuxF d).n = (woutAuxS c).n ∧
    (∀ i, 0 ≤ i → i < (woutAuxS c).n → (0 ≤ (woutAuxS c).v i ↔ i < c.n)) ∧
    (∀ i, 0 ≤ i → i < c.n → (woutAuxS c).v i = c.v i ∧ (woutAuxF d).v i = d.v i) := by
  unfold woutAuxS woutAuxF padVector nonEmptyOr
  rw [hd]
  by_cases h0 : c.n > 0
  · simp only [h0, if_true, hd]
    by_cases h1 : c.n < 101
    · simp only [h1, if_true]
      refine ⟨le_refl _, trivial, fun i i0 i1 => ?_, fun i i0 i1 => by simp [i1]⟩
      by_cases h2 : i < c.n
      · simp [h2, hs i i0 h2]
      · simp [h2]
    · simp only [h1, if_false]
      exact ⟨by omega, hd, fun i i0 i1 => by simp [i1, hs i i0 i1], fun i i0 i1 => ⟨trivial, trivial⟩⟩
  · have : c.n = 0 := by omega
    simp only [this, gt_iff_lt, lt_irrefl, if_false]
    have e : (1 : Int) < 101 := by norm_num
    simp only [e, if_true]
    refine ⟨le_refl _, trivial, fun i i0 i1 => ⟨fun h => ?_, fun h => by omega⟩, fun i i0 i1 => by omega⟩
    split_ifs at h <;> norm_num at h

/-! ## status -/

/-- **C94** (status): `ier_flag` is 0 exactly for the two terminations without an error. -/
theorem C94_status (st : Control.VmecStatus) : ierFlag st = 0 ↔ st = .normal ∨ st = .success := by
  cases st <;> simp [ierFlag, statusCode]

/-- a run that has not converged has the same flag as a run that has -/
theorem C94_status_not_injective : ierFlag .normal = ierFlag .success ∧ Control.VmecStatus.normal ≠ .success := by
  constructor <;> decide

/-- the remaining values are distinct -/
theorem C94_status_partial (a b : Control.VmecStatus) (ha : a ≠ .success) (hb : b ≠ .success) (h : ierFlag a = ierFlag b) : a = b := by
  cases a <;> cases b <;> simp_all [ierFlag, statusCode]

/-! ## history of the energy -/

/-- specification: the relative change of the energy in step `i` -/
noncomputable def decayRate (W : Int → ℝ) (i : Int) : ℝ := (W i - W (i - 1)) / W i

/-- element `i` is the first one of a later step of the assignment -/
def startsChunk : List ℕ → Int → Int → Prop
  | [], _, _ => False
  | k :: ks, a, i => (i = a + k ∧ ks ≠ []) ∨ startsChunk ks (a + k) i

theorem chunks_below (ks : List ℕ) : ∀ (a : Int) (w : Int → ℝ) (i : Int), i < a → wdotChunks ks a w i = w i := by
  induction ks with
  | nil => intros; rfl
  | cons k ks ih =>
    intro a w i hi
    unfold wdotChunks
    rw [ih _ _ _ (by omega)]
    unfold wdotChunk
    rw [if_neg (by omega)]

open Classical in
theorem chunks_eq (ks : List ℕ) (hk : ∀ k ∈ ks, 0 < k) : ∀ (a : Int) (w : Int → ℝ) (i : Int), a ≤ i → i < a + (ks.sum : ℕ) →
    wdotChunks ks a w i = if startsChunk ks a i then (w i - wdotChunks ks a w (i - 1)) / w i else (w i - w (i - 1)) / w i := by
  induction ks with
  | nil => intro a w i h1 h2; simp at h2; omega
  | cons k ks ih =>
    intro a w i h1 h2
    have k0 := hk k (by simp)
    have hks : ∀ k ∈ ks, 0 < k := fun k' h => hk k' (by simp [h])
    rw [List.sum_cons] at h2
    rw [Nat.cast_add] at h2
    have st_ge : ∀ (ks : List ℕ) (b j : Int), startsChunk ks b j → b ≤ j := by
      intro ks
      induction ks with
      | nil => intro b j h; exact h.elim
      | cons q qs ihq =>
        intro b j h
        rcases h with ⟨h, -⟩ | h
        · omega
        · have := ihq _ _ h; omega
    unfold wdotChunks
    by_cases hi : i < a + k
    · have hn : ¬ startsChunk (k :: ks) a i := by
        rintro (⟨h, -⟩ | h)
        · omega
        · have := st_ge _ _ _ h; omega
      rw [if_neg hn, chunks_below _ _ _ _ hi]
      unfold wdotChunk
      rw [if_pos ⟨h1, hi⟩]
    · rw [ih hks (a + k) _ i (by omega) (by omega)]
      have hw : wdotChunk a (a + k) w i = w i := by unfold wdotChunk; rw [if_neg (by omega)]
      rw [hw]
      by_cases he : i = a + k
      · have hne : ks ≠ [] := by
          rintro rfl; simp at h2; omega
        have hs : startsChunk (k :: ks) a i := Or.inl ⟨he, hne⟩
        rw [if_pos hs]
        rw [chunks_below ks (a + k) _ (i - 1) (by omega)]
        split_ifs <;> rfl
      · have hiff : startsChunk (k :: ks) a i ↔ startsChunk ks (a + k) i := by
          constructor
          · rintro (⟨h, -⟩ | h)
            · exact absurd h he
            · exact h
          · exact Or.inr
        have hw' : wdotChunk a (a + k) w (i - 1) = w (i - 1) := by unfold wdotChunk; rw [if_neg (by omega)]
        rw [hw']
        by_cases hs : startsChunk ks (a + k) i
        · rw [if_pos hs, if_pos (hiff.2 hs)]
        · rw [if_neg hs, if_neg (fun h => hs (hiff.1 h))]

open Classical in
/-- **C94** (history of the energy), what the file contains: element 0 is the first energy; the others are the relative change of the energy, except that at the
    first element of every later step of the assignment the *relative change* of the element before takes the place of the energy before. -/
theorem C94_wdot (size : Int) (hsz : 1 < size) (chunks : List ℕ) (hk : ∀ k ∈ chunks, 0 < k) (hsum : size = 1 + (chunks.sum : ℕ)) (W : Int → ℝ) :
    wdot size chunks W 0 = W 0 ∧ ∀ i, 1 ≤ i → i < size →
      wdot size chunks W i = if startsChunk chunks 1 i then (W i - wdot size chunks W (i - 1)) / W i else decayRate W i := by
  unfold wdot
  rw [if_pos hsz]
  refine ⟨chunks_below _ _ _ _ (by norm_num), fun i i0 i1 => ?_⟩
  rw [chunks_eq chunks hk 1 W i i0 (by omega)]
  rfl

/-- **C94** (history of the energy): when the whole assignment is one step, the file contains the decay rate. -/
theorem C94_wdot_partial (size : Int) (hsz : 1 < size) (W : Int → ℝ) (i : Int) (h1 : 1 ≤ i) (h2 : i < size) :
    wdot size [(size - 1).toNat] W i = decayRate W i := by
  have h := (C94_wdot size hsz [(size - 1).toNat] (by simp; omega) (by simp; omega) W).2 i h1 h2
  rw [h, if_neg]
  rintro (⟨-, h⟩ | h)
  · exact h rfl
  · exact h

/-- an element at the start of a later step is the decay rate only when the energy before equals the entry before -/
theorem C94_wdot_wrong (size : Int) (hsz : 1 < size) (chunks : List ℕ) (hk : ∀ k ∈ chunks, 0 < k) (hsum : size = 1 + (chunks.sum : ℕ)) (W : Int → ℝ)
    (i : Int) (h1 : 1 ≤ i) (h2 : i < size) (hst : startsChunk chunks 1 i) (hW : W i ≠ 0) :
    wdot size chunks W i = decayRate W i ↔ wdot size chunks W (i - 1) = W (i - 1) := by
  rw [(C94_wdot size hsz chunks hk hsum W).2 i h1 h2, if_pos hst]
  unfold decayRate
  rw [div_left_inj' hW]
  constructor <;> intro h <;> linarith

/-- scalar code, energies 4, 2, 1: the third element is `(1 - (2 - 4) / 2) / 1 = 2`, the decay rate is `-1` -/
theorem C94_wdot_counterexample : ∃ W : Int → ℝ, (∀ i, 0 ≤ i → i < 3 → 0 < W i) ∧ wdot 3 [1, 1] W 2 = 2 ∧ decayRate W 2 = -1 := by
  refine ⟨fun i => if i = 0 then 4 else if i = 1 then 2 else 1, ?_, ?_, ?_⟩
  · intro i _ _; dsimp only; split_ifs <;> norm_num
  · simp [wdot, wdotChunks, wdotChunk]; norm_num
  · simp [decayRate]; norm_num

/-! ## profiles -/

/-- **C94** (safety factor): where the rotational transform is not zero the safety factor is its inverse, elsewhere it is `DBL_MAX` -/
theorem C94_q_factor (ns : Int) (dblMax : ℝ) (iotaf : Int → ℝ) (j : Int) (j0 : 0 ≤ j) (j1 : j < ns) :
    (iotaf j ≠ 0 → qFactor ns dblMax iotaf j * iotaf j = 1) ∧ (iotaf j = 0 → qFactor ns dblMax iotaf j = dblMax) := by
  have inv : ∀ k : Int, (fun (k : Int) (q : Int → ℝ) => ∀ j, (0 ≤ j → j < k → q j = if iotaf j ≠ 0 then 1 / iotaf j else dblMax) ∧ (k ≤ j → q j = dblMax)) k
      (forRange 0 k (fun jF q => if iotaf jF ≠ 0 then upd q jF (1 / iotaf jF) else q) (fun _ => dblMax)) ∨ k < 0 := by
    intro k
    by_cases hk : k < 0
    · exact Or.inr hk
    left
    refine forRange_inv (by omega) _ _ (fun k (q : Int → ℝ) => ∀ j, (0 ≤ j → j < k → q j = if iotaf j ≠ 0 then 1 / iotaf j else dblMax) ∧ (k ≤ j → q j = dblMax)) ?_ ?_
    · exact fun j => ⟨fun _ _ => by omega, fun _ => rfl⟩
    · intro i q i0 i1 hq j
      obtain ⟨a, b⟩ := hq j
      by_cases hj : j = i
      · subst hj
        refine ⟨fun _ _ => ?_, fun _ => by omega⟩
        by_cases h : iotaf j ≠ 0
        · simp [h]
        · rw [if_neg h, if_neg h]; exact b (le_refl _)
      · have : (if iotaf i ≠ 0 then upd q i (1 / iotaf i) else q) j = q j := by
          split_ifs
          · exact upd_ne _ _ hj
          · rfl
        rw [this]
        exact ⟨fun x y => a x (by omega), fun y => b (by omega)⟩
  have e : qFactor ns dblMax iotaf j = if iotaf j ≠ 0 then 1 / iotaf j else dblMax := by
    rcases inv ns with h | h
    · exact (h j).1 j0 j1
    · omega
  rw [e]
  exact ⟨fun h => by rw [if_pos h]; field_simp, fun h => by simp [h]⟩

/-- **C94** (half-grid profiles): the value of half-grid surface `jH` is in element `jH + 1`, element 0 is zero; `mass` and `pres` are divided by `mu_0` -/
theorem C94_half_grid (ns : Int) (mu_0 : ℝ) (h : Int → ℝ) :
    halfColumn ns h 0 = 0 ∧ halfColumnMu ns mu_0 h 0 = 0 ∧
    ∀ jH, 0 ≤ jH → jH < ns - 1 → halfColumn ns h (jH + 1) = h jH ∧ (mu_0 ≠ 0 → mu_0 * halfColumnMu ns mu_0 h (jH + 1) = h jH) := by
  have inv : 0 ≤ ns - 1 → (fun (k : Int) (a : Int → ℝ) => a 0 = 0 ∧ ∀ j, 0 ≤ j → j < k → a (j + 1) = h j / mu_0) (ns - 1) (halfColumnMu ns mu_0 h) := by
    intro h0
    refine forRange_inv h0 _ _ (fun k (a : Int → ℝ) => a 0 = 0 ∧ ∀ j, 0 ≤ j → j < k → a (j + 1) = h j / mu_0) ⟨rfl, fun j _ _ => by omega⟩ ?_
    intro i a i0 i1 ⟨h1, h2⟩
    refine ⟨by rw [upd_ne _ _ (by omega)]; exact h1, fun j j0 j1 => ?_⟩
    by_cases hj : j = i
    · subst hj; simp
    · rw [upd_ne _ _ (by omega)]; exact h2 j j0 (by omega)
  refine ⟨by simp [halfColumn], ?_, fun jH h0 h1 => ⟨?_, fun hm => ?_⟩⟩
  · by_cases hn : 0 ≤ ns - 1
    · exact (inv hn).1
    · unfold halfColumnMu; rw [forRange_empty (by omega)]
  · have e : ns - (ns - 1) = 1 := by ring
    unfold halfColumn
    rw [e, if_neg (by omega), add_sub_cancel_right]
  · rw [(inv (by omega)).2 jH h0 h1]; field_simp

/-! ## axis -/

theorem axis_eq (s : Sizes.Sizes) (hN : 0 ≤ s.ntor) (ms ns : Int → ℝ) (x : Coef → Int → ℝ) (n : Int) (n0 : 0 ≤ n) (n1 : n ≤ s.ntor) :
    (axisGeometry s ms ns x).raxis_symm n = ms 0 * ns n * x .rmncc (cIdx s 0 n 0) ∧
    (axisGeometry s ms ns x).zaxis_symm n = (if s.lthreed then -(ms 0 * ns n) * x .zmncs (cIdx s 0 n 0) else 0) ∧
    (s.lasym = true → (axisGeometry s ms ns x).zaxis_asym n = ms 0 * ns n * x .zmncc (cIdx s 0 n 0)) ∧
    (s.lasym = true → (axisGeometry s ms ns x).raxis_asym n = (if s.lthreed then -(ms 0 * ns n) * x .rmncs (cIdx s 0 n 0) else 0)) := by
  refine (forRange_inv (show (0 : Int) ≤ s.ntor + 1 by omega) _ _ (fun k (a : AxisGeometry) => ∀ n, 0 ≤ n → (n < k →
      a.raxis_symm n = ms 0 * ns n * x .rmncc (cIdx s 0 n 0) ∧
      a.zaxis_symm n = (if s.lthreed then -(ms 0 * ns n) * x .zmncs (cIdx s 0 n 0) else 0) ∧
      (s.lasym = true → a.zaxis_asym n = ms 0 * ns n * x .zmncc (cIdx s 0 n 0)) ∧
      (s.lasym = true → a.raxis_asym n = (if s.lthreed then -(ms 0 * ns n) * x .rmncs (cIdx s 0 n 0) else 0))) ∧
      (k ≤ n → a.zaxis_symm n = 0 ∧ a.raxis_asym n = 0)) ?_ ?_ n n0).1 (by omega)
  · exact fun n _ => ⟨fun _ => by omega, fun _ => ⟨rfl, rfl⟩⟩
  · intro i a i0 i1 hq n n0
    obtain ⟨p, q⟩ := hq n n0
    by_cases hn : n = i
    · subst hn
      refine ⟨fun _ => ?_, fun _ => by omega⟩
      obtain ⟨q1, q2⟩ := q (le_refl _)
      cases h1 : s.lthreed <;> cases h2 : s.lasym <;> simp [q1, q2, cIdx]
    · have e1 (f : Int → ℝ) (v : ℝ) : upd f i v n = f n := upd_ne _ _ hn
      refine ⟨fun h => ?_, fun h => ?_⟩
      · have := p (by omega)
        cases h1 : s.lthreed <;> cases h2 : s.lasym <;> simp_all
      · have := q (by omega)
        cases h1 : s.lthreed <;> cases h2 : s.lasym <;> simp_all

/-- **C94** (axis, same file): the axis coefficients are the `m = 0` coefficients of the innermost surface of the same file -/
theorem C94_axis_coefficients {s : Sizes.Sizes} {ns : Int} {xm xn : Int → Int} (r : Run s ns xm xn) (hns : 1 ≤ ns) (x : Coef → Int → ℝ) :
    ∃ f g, symSurface s scale scale (convert s ns x) 0 = .ok f ∧ asymSurface s scale scale (convert s ns x) 0 = .ok g ∧
      ∀ n, 0 ≤ n → n ≤ s.ntor →
        (axisGeometry s scale scale x).raxis_symm n = (f (idx s.ntor 0 n)).r ∧ (axisGeometry s scale scale x).zaxis_symm n = (f (idx s.ntor 0 n)).z ∧
        (s.lasym = true → (axisGeometry s scale scale x).raxis_asym n = (g (idx s.ntor 0 n)).r ∧ (axisGeometry s scale scale x).zaxis_asym n = (g (idx s.ntor 0 n)).z) := by
  have hM : 1 ≤ s.mpol := by have := r.mpol; omega
  obtain ⟨f, f1, f2, -⟩ := sym_eq s hM r.ntor r.mnmax scale scale (convert s ns x) 0
  obtain ⟨g, g1, g2, -⟩ := asym_eq s hM r.ntor r.mnmax scale scale (convert s ns x) 0
  refine ⟨f, g, f1, g1, fun n n0 n1 => ?_⟩
  obtain ⟨a1, a2, a3, a4⟩ := axis_eq s r.ntor scale scale x n n0 n1
  have cv (c : Coef) : convert s ns x c (cIdx s 0 n 0) = x c (cIdx s 0 n 0) := by
    rw [convert_eq s ns r.mpol x c 0 n 0 (le_refl _) (by omega) n0 n1 (le_refl _) (by omega)]
    simp [phys, cIdx]
  obtain ⟨b1, b2, -⟩ := f2 n n0 n1
  rw [a1, a2, b1, b2, g2 n n0 n1]
  simp only [cv]
  exact ⟨trivial, trivial, fun h => ⟨a4 h, a3 h⟩⟩

/-- **C94** (axis): when the internal coefficients with `m ≥ 1` vanish on the axis, the axis coefficients of the file describe the curve to which the
    surfaces shrink: `R = Σ raxis_cc cos(n nfp φ) - raxis_cs sin(n nfp φ)` and `Z = Σ zaxis_cc cos(n nfp φ) - zaxis_cs sin(n nfp φ)`, for every poloidal angle -/
theorem C94_axis {s : Sizes.Sizes} {ns : Int} {xm xn : Int → Int} (r : Run s ns xm xn) (x : Coef → Int → ℝ)
    (hax : ∀ c m n, 1 ≤ m → m < s.mpol → 0 ≤ n → n ≤ s.ntor → phys s x c 0 m n = 0) (θ φ : ℝ) :
    productCos s.mpol s.ntor (phys s x .rmncc 0) (phys s x .rmnss 0) θ (s.nfp * φ) =
      ∑ n ∈ Ico 0 (s.ntor + 1), (axisGeometry s scale scale x).raxis_symm n * Real.cos (n * (s.nfp * φ)) ∧
    productSin s.mpol s.ntor (phys s x .zmnsc 0) (phys s x .zmncs 0) θ (s.nfp * φ) =
      -∑ n ∈ Ico 0 (s.ntor + 1), (axisGeometry s scale scale x).zaxis_symm n * Real.sin (n * (s.nfp * φ)) ∧
    (s.lasym = true →
      productSin s.mpol s.ntor (phys s x .rmnsc 0) (phys s x .rmncs 0) θ (s.nfp * φ) =
        -∑ n ∈ Ico 0 (s.ntor + 1), (axisGeometry s scale scale x).raxis_asym n * Real.sin (n * (s.nfp * φ)) ∧
      productCos s.mpol s.ntor (phys s x .zmncc 0) (phys s x .zmnss 0) θ (s.nfp * φ) =
        ∑ n ∈ Ico 0 (s.ntor + 1), (axisGeometry s scale scale x).zaxis_asym n * Real.cos (n * (s.nfp * φ))) := by
  have hM : 2 ≤ s.mpol := r.mpol
  have only (f : Int → ℝ) (h : ∀ m, 1 ≤ m → m < s.mpol → f m = 0) : ∑ m ∈ Ico 0 s.mpol, f m = f 0 := by
    refine sum_eq_single 0 (fun m hm h0 => h m ?_ (mem_Ico.1 hm).2) (fun h0 => absurd (mem_Ico.2 ⟨le_refl _, by omega⟩) h0)
    have := (mem_Ico.1 hm).1; omega
  have p0 (c : Coef) (n : Int) : phys s x c 0 0 n = x c (cIdx s 0 n 0) := by simp [phys, cIdx]
  have sc0 : scale 0 = 1 := by simp [scale]
  have ax (n : Int) (hn : n ∈ Ico 0 (s.ntor + 1)) := axis_eq s r.ntor scale scale x n (mem_Ico.1 hn).1 (by have := (mem_Ico.1 hn).2; omega)
  have sn (n : Int) (hn : n ∈ Ico 0 (s.ntor + 1)) (h : ¬ s.lthreed = true) (ζ : ℝ) : Real.sin (n * ζ) = 0 := by
    have h1 : ¬ 0 < s.ntor := fun e => h (r.lthreed.2 e)
    have := mem_Ico.1 hn
    have : n = 0 := by omega
    subst this; simp
  unfold productCos productSin
  refine ⟨?_, ?_, fun hl => ⟨?_, ?_⟩⟩
  · rw [only _ (fun m hm hm1 => sum_eq_zero (fun n hn => by
      have := mem_Ico.1 hn
      rw [hax _ m n hm hm1 this.1 (by omega), hax _ m n hm hm1 this.1 (by omega)]; ring))]
    refine sum_congr rfl (fun n hn => ?_)
    rw [(ax n hn).1, p0, sc0]; simp; ring
  · rw [only _ (fun m hm hm1 => sum_eq_zero (fun n hn => by
      have := mem_Ico.1 hn
      rw [hax _ m n hm hm1 this.1 (by omega), hax _ m n hm hm1 this.1 (by omega)]; ring)), ← sum_neg_distrib]
    refine sum_congr rfl (fun n hn => ?_)
    rw [(ax n hn).2.1, p0, p0, sc0]
    by_cases h3 : s.lthreed = true
    · rw [if_pos h3]; simp; ring
    · rw [if_neg h3, sn n hn h3]; simp
  · rw [only _ (fun m hm hm1 => sum_eq_zero (fun n hn => by
      have := mem_Ico.1 hn
      rw [hax _ m n hm hm1 this.1 (by omega), hax _ m n hm hm1 this.1 (by omega)]; ring)), ← sum_neg_distrib]
    refine sum_congr rfl (fun n hn => ?_)
    rw [(ax n hn).2.2.2 hl, p0, p0, sc0]
    by_cases h3 : s.lthreed = true
    · rw [if_pos h3]; simp; ring
    · rw [if_neg h3, sn n hn h3]; simp
  · rw [only _ (fun m hm hm1 => sum_eq_zero (fun n hn => by
      have := mem_Ico.1 hn
      rw [hax _ m n hm hm1 this.1 (by omega), hax _ m n hm hm1 this.1 (by omega)]; ring))]
    refine sum_congr rfl (fun n hn => ?_)
    rw [(ax n hn).2.2.1 hl, p0, sc0]; simp; ring

/-! ### non-vacuity -/

/-- three coefficients -/
example : evalPowerSeries (woutCoef ⟨3, fun i => i + 1⟩) 2 false = 17 := by
  rw [(C94_coefficients ⟨3, fun i => i + 1⟩ (by norm_num)).2.2, C30_power_series]
  have : Int.toNat 3 = 3 := rfl
  simp only [poly, this, sum_range_succ, sum_range_zero]
  norm_num

/-- eleven knots -/
example : ∀ i : Int, 0 ≤ i → i < 11 → 0 ≤ (⟨11, fun i => i / 10⟩ : RVec).v i := by
  intro i h _
  have : (0 : ℝ) ≤ i := by exact_mod_cast h
  dsimp only; positivity

/-- **C94** (total residual): for residuals that are not negative, the stored total bounds each of the three and is at most three times the largest; it vanishes exactly if all three do. -/
theorem C94_total (r z l : Int → ℝ) (i : Int) (hr : 0 ≤ r i) (hz : 0 ≤ z i) (hl : 0 ≤ l i) :
    r i ≤ fsqt r z l i ∧ z i ≤ fsqt r z l i ∧ l i ≤ fsqt r z l i ∧ fsqt r z l i ≤ 3 * max (r i) (max (z i) (l i)) ∧ (fsqt r z l i = 0 ↔ r i = 0 ∧ z i = 0 ∧ l i = 0) := by
  unfold fsqt
  have h1 := le_max_left (r i) (max (z i) (l i))
  have h2 := (le_max_left (z i) (l i)).trans (le_max_right (r i) (max (z i) (l i)))
  have h3 := (le_max_right (z i) (l i)).trans (le_max_right (r i) (max (z i) (l i)))
  refine ⟨by linarith, by linarith, by linarith, by linarith, fun h => ⟨by linarith, by linarith, by linarith⟩, fun ⟨a, b, c⟩ => by rw [a, b, c]; norm_num⟩
example : ∃ r z l : Int → ℝ, 0 < r 3 ∧ 0 < z 3 ∧ 0 < l 3 ∧ l 3 ≤ fsqt r z l 3 :=
  ⟨fun _ => 1, fun _ => 2, fun _ => 3, by norm_num, by norm_num, by norm_num, (C94_total (fun _ => 1) (fun _ => 2) (fun _ => 3) 3 (by norm_num) (by norm_num) (by norm_num)).2.2.1⟩

/-- six energies in scalar code: element 4 starts a step -/
example : startsChunk [1, 1, 1, 1, 1] 1 4 ∧ (6 : Int) = 1 + (([1, 1, 1, 1, 1] : List ℕ).sum : ℕ) := by
  refine ⟨?_, by decide⟩
  right; right; left; exact ⟨by norm_num, by simp⟩

/-- an axis with five harmonics -/
example : ∃ s xm xn, Run s 5 xm xn ∧ s.lthreed = true ∧ s.lasym = true ∧
    ∃ x : Coef → Int → ℝ, (∀ c m n, 1 ≤ m → m < s.mpol → 0 ≤ n → n ≤ s.ntor → phys s x c 0 m n = 0) ∧ ∀ c n, x c (cIdx s 0 n 0) ≠ 0 := by
  obtain ⟨xm, xn, h, _⟩ := C09_mode_table 6 4 5 (by decide) (by decide)
  obtain ⟨s, hs⟩ : ∃ s, Sizes.mk true 5 6 4 0 36 0 0 = .ok s := ⟨_, rfl⟩
  have hp : s.mpol = 6 := by cases hs; rfl
  refine ⟨s, xm, xn, ⟨⟨_, _, _, _, _, _, _, _, hs⟩, ?_, ?_⟩, ?_, ?_, fun _ i => if i % 6 = 0 then 1 else 0, ?_, ?_⟩
  · cases hs; exact h
  · cases hs; decide
  · cases hs; decide
  · cases hs; decide
  · intro c m n m0 m1 n0 n1
    have : ¬ ((0 * (s.ntor + 1) + n) * s.mpol + m) % 6 = 0 := by rw [hp] at m1 ⊢; omega
    unfold phys
    simp only [this, if_false]
    split
    · cases c <;> simp
    · rfl
  · intro c n
    have : cIdx s 0 n 0 % 6 = 0 := by unfold cIdx; rw [hp]; omega
    simp [this]

end Verif.Output
