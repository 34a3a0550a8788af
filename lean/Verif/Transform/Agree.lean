import Verif.Transform.Fft

/-!
# The FFT variants compute the direct sums
-/
namespace Verif.Transform
open Verif Verif.Fourier Partition Finset

variable {c : Ctx} {lib : Lib}

theorem slot_lt {m : Int} (q : Slot) (hm0 : 0 ≤ m) (hm1 : m < c.s.mpol) :
    0 ≤ m * kBatch + q.num ∧ m * kBatch + q.num < kBatch * c.s.mpol := by
  obtain ⟨h1, h2⟩ := slot_range q
  unfold kBatch at *
  omega

/-- what the library leaves in a slot -/
theorem c2r_slot (h : Good c) (hl : Spec.Documented lib c.s.nZeta (kBatch * c.s.mpol)) (x : Coef → Int → ℝ) (jF m k : Int)
    (X : Int → Cpx) (Y : Int → ℝ) (hm0 : 0 ≤ m) (hm1 : m < c.s.mpol) (hj : ¬ jF < jMin m) (k0 : 0 ≤ k) (k1 : k < c.s.nZeta) :
    (fun q => lib.c2r (forRange 0 c.s.mpol (fun m X => packMode c x jF m X) X) Y (ySlot c m q + k)) = torSums c x jF m k := by
  rw [torSums_eq]
  funext q
  obtain ⟨s1, s2⟩ := slot_lt (c := c) q hm0 hm1
  unfold ySlot
  rw [hl.c2r _ _ _ _ s1 s2 k0 k1, ← synthesis_slot h (fun a n => x a (idxMn c c.r.nsMinF1 jF m n)) q k k0 k1]
  have ht := h.ntor
  have hq := h.nyq
  have hh := h.half
  have e : ∀ n, 0 ≤ n → n < nhalf c → forRange 0 c.s.mpol (fun m X => packMode c x jF m X) X
      ((m * kBatch + q.num) * (c.s.nZeta / 2 + 1) + n) = spectrum c (fun a n => x a (idxMn c c.r.nsMinF1 jF m n)) q n := by
    intro n n0 n1
    rw [← hh]
    exact packed h x jF m q n X hm0 hm1 hj n0 n1
  unfold Spec.synthesis
  beta_reduce
  congr 1
  · congr 1
    · rw [e 0 (le_refl _) (by omega)]
    · congr 1
      refine Finset.sum_congr rfl fun n hn => ?_
      rw [Finset.mem_filter, Finset.mem_Ico] at hn
      rw [e n (by omega) (by omega)]
  · rw [e (c.s.nZeta / 2) (by omega) (by omega)]

theorem fourierToRealFft_eq (h : Good c) (hl : Spec.Documented lib c.s.nZeta (kBatch * c.s.mpol)) (x : Coef → Int → ℝ)
    (X : Int → Cpx) (Y : Int → ℝ) : fourierToRealFft c lib x X Y = fourierToRealDft c x := by
  rw [fourierToRealDft_eq]
  unfold fourierToRealFft
  rcases le_total c.r.nsMaxF1 c.r.nsMinF1 with hle | hle
  · rw [forRange_empty hle, Finset.Ico_eq_empty (by omega), Finset.sum_empty]; rfl
  refine forRange_inv (lo := c.r.nsMinF1) (hi := c.r.nsMaxF1) hle _ _
    (fun (j : Int) (st : (Int → Cpx) × (Int → ℝ) × (Arr → Int → ℝ)) =>
      st.2.2 = ∑ jF ∈ Ico c.r.nsMinF1 j, surfaceSum c jF (torSums c x jF)) ?_ ?_
  · rw [Finset.Ico_self, Finset.sum_empty]; rfl
  · intro j st h1 h2 ih
    dsimp only
    rw [sum_Ico_int_succ h1, ← ih]
    unfold surfaceSum
    rw [loop_add]
    intro m g m0 m1
    split
    · rw [add_zero]
    · rename_i hj
      rw [loop_add]
      intro k g k0 k1
      rw [poloidalFft_eq, c2r_slot h hl x j m k _ _ m0 m1 hj k0 k1]

/-! ### forces -/

/-- what mode (m, n) gets in the R and Z arrays from the plane sums `y k` -/
noncomputable def rzSum (c : Ctx) (jF m k n : Int) (y : Slot → ℝ) : Coef → Int → ℝ :=
  let t := torAt c k n
  let i := idxMn c c.r.nsMinF jF m n
  single .rcc i (y .rmkcc * t.cosnv + y .rmkcc_n * t.sinnvn) + single .rss i (y .rmkss * t.sinnv + y .rmkss_n * t.cosnvn) +
    single .zsc i (y .zmksc * t.cosnv + y .zmksc_n * t.sinnvn) + single .zcs i (y .zmkcs * t.sinnv + y .zmkcs_n * t.cosnvn)

noncomputable def lSum (c : Ctx) (jF m k n : Int) (y : Slot → ℝ) : Coef → Int → ℝ :=
  let t := torAt c k n
  let i := idxMn c c.r.nsMinF jF m n
  single .lsc i (y .lmksc * t.cosnv + y .lmksc_n * t.sinnvn) + single .lcs i (y .lmkcs * t.sinnv + y .lmkcs_n * t.cosnvn)

theorem addRZ_eq (jF m k n : Int) (y : Slot → ℝ) (f : Coef → Int → ℝ) : addRZ c jF m k n y f = f + rzSum c jF m k n y := by
  unfold addRZ rzSum
  dsimp only
  simp only [addTo_eq]
  abel

theorem addL_eq (jF m k n : Int) (y : Slot → ℝ) (f : Coef → Int → ℝ) : addL c jF m k n y f = f + lSum c jF m k n y := by
  unfold addL lSum
  dsimp only
  simp only [addTo_eq]
  abel

/-- the direct force transform as a sum -/
theorem forcesToFourierDft_eq (d : FArr → Bool → Int → ℝ) : forcesToFourierDft c d =
    (∑ jF ∈ Ico c.r.nsMinF (jMaxRZ c), ∑ m ∈ Ico 0 (mMax c jF), ∑ n ∈ Ico 0 (c.s.ntor + 1), ∑ k ∈ Ico 0 c.s.nZeta,
      (rzSum c jF m k n (polSums c d jF m k) + if 1 ≤ jF then lSum c jF m k n (polSums c d jF m k) else 0)) +
    ∑ jF ∈ Ico (jMaxRZ c) c.r.nsMaxFIncludingLcfs, ∑ m ∈ Ico 0 c.s.mpol, ∑ n ∈ Ico 0 (c.s.ntor + 1), ∑ k ∈ Ico 0 c.s.nZeta,
      lSum c jF m k n (polSums c d jF m k) := by
  unfold forcesToFourierDft
  dsimp only
  rw [loop_add (lo := jMaxRZ c) (v := fun jF => ∑ m ∈ Ico 0 c.s.mpol, ∑ n ∈ Ico 0 (c.s.ntor + 1), ∑ k ∈ Ico 0 c.s.nZeta,
      lSum c jF m k n (polSums c d jF m k))]
  · congr 1
    rw [loop_add (v := fun jF => ∑ m ∈ Ico 0 (mMax c jF), ∑ n ∈ Ico 0 (c.s.ntor + 1), ∑ k ∈ Ico 0 c.s.nZeta,
      (rzSum c jF m k n (polSums c d jF m k) + if 1 ≤ jF then lSum c jF m k n (polSums c d jF m k) else 0)),
      show (fun (_ : Coef) (_ : Int) => (0:ℝ)) = 0 from rfl, zero_add]
    intro jF f _ _
    refine loop_add _ _ ?_ f
    intro m f _ _
    rw [Finset.sum_comm]
    refine loop_add _ _ ?_ f
    intro k f _ _
    refine loop_add _ _ ?_ f
    intro n f _ _
    rw [addRZ_eq]
    split
    · rw [addL_eq, add_assoc]
    · rw [add_zero]
  · intro jF f _ _
    refine loop_add _ _ ?_ f
    intro m f _ _
    rw [Finset.sum_comm]
    refine loop_add _ _ ?_ f
    intro k f _ _
    refine loop_add _ _ ?_ f
    intro n f _ _
    exact addL_eq _ _ _ _ _ _

theorem storeRow_apply (m m' k k' : Int) (q : Slot) (y : Slot → ℝ) (b : Int → ℝ) (k0 : 0 ≤ k) (k1 : k < c.s.nZeta)
    (k0' : 0 ≤ k') (k1' : k' < c.s.nZeta) :
    storeRow c m k y b (ySlot c m' q + k') = if m' = m ∧ k' = k then y q else b (ySlot c m' q + k') := by
  have key : ∀ q', ySlot c m' q + k' = ySlot c m q' + k ↔ (m' = m ∧ k' = k) ∧ q = q' := by
    intro q'
    unfold ySlot
    constructor
    · intro hh
      obtain ⟨h1, h2⟩ := flat_inj k0' k1' k0 k1 hh
      obtain ⟨h3, h4⟩ := slot_inj h1
      exact ⟨⟨h3, h2⟩, h4⟩
    · rintro ⟨⟨rfl, rfl⟩, rfl⟩; rfl
  unfold storeRow upd
  simp only [key]
  by_cases e : m' = m ∧ k' = k
  · simp only [e, true_and, and_self, if_true]
    cases q <;> simp
  · simp only [e, false_and, if_false]

theorem storeLambda_apply (m m' k k' : Int) (q : Slot) (y : Slot → ℝ) (b : Int → ℝ) (k0 : 0 ≤ k) (k1 : k < c.s.nZeta)
    (k0' : 0 ≤ k') (k1' : k' < c.s.nZeta) (hq : q = .lmksc ∨ q = .lmkcs ∨ q = .lmksc_n ∨ q = .lmkcs_n) :
    storeLambda c m k y b (ySlot c m' q + k') = if m' = m ∧ k' = k then y q else b (ySlot c m' q + k') := by
  have key : ∀ q', ySlot c m' q + k' = ySlot c m q' + k ↔ (m' = m ∧ k' = k) ∧ q = q' := by
    intro q'
    unfold ySlot
    constructor
    · intro hh
      obtain ⟨h1, h2⟩ := flat_inj k0' k1' k0 k1 hh
      obtain ⟨h3, h4⟩ := slot_inj h1
      exact ⟨⟨h3, h2⟩, h4⟩
    · rintro ⟨⟨rfl, rfl⟩, rfl⟩; rfl
  unfold storeLambda upd
  simp only [key]
  by_cases e : m' = m ∧ k' = k
  · simp only [e, true_and, and_self, if_true]
    rcases hq with rfl | rfl | rfl | rfl <;> simp
  · simp only [e, false_and, if_false]

/-- a double loop of stores, read at a slot whose row is stored -/
theorem stored (M : Int) (f : Int → Int → (Int → ℝ) → Int → ℝ) (y : Int → Int → Slot → ℝ) (q : Slot)
    (hf : ∀ m m' k k' b, 0 ≤ k → k < c.s.nZeta → 0 ≤ k' → k' < c.s.nZeta →
      f m k b (ySlot c m' q + k') = if m' = m ∧ k' = k then y m k q else b (ySlot c m' q + k'))
    (b : Int → ℝ) (m k : Int) (m0 : 0 ≤ m) (m1 : m < M) (k0 : 0 ≤ k) (k1 : k < c.s.nZeta) :
    forRange 0 M (fun m b => forRange 0 c.s.nZeta (fun k b => f m k b) b) b (ySlot c m q + k) = y m k q := by
  have inner : ∀ m' b, forRange 0 c.s.nZeta (fun k b => f m' k b) b (ySlot c m q + k) =
      if m = m' then y m k q else b (ySlot c m q + k) := by
    intro m' b
    by_cases e : m = m'
    · subst e
      rw [if_pos rfl]
      have := forRange_inv (lo := 0) (hi := c.s.nZeta) (by omega) (fun k b => f m k b) b
        (fun (j : Int) (t : Int → ℝ) => k < j → t (ySlot c m q + k) = y m k q) (by intro; omega) (by
          intro j t j0 j1 ih hkj
          rw [hf m m j k t j0 j1 k0 k1]
          by_cases e : k = j
          · rw [if_pos ⟨rfl, e⟩, e]
          · rw [if_neg (fun hh => e hh.2)]; exact ih (by omega))
      exact this k1
    · rw [if_neg e]
      refine forRange_inv (lo := 0) (hi := c.s.nZeta) (by omega) (fun k b => f m' k b) b
        (fun (_ : Int) (t : Int → ℝ) => t (ySlot c m q + k) = b (ySlot c m q + k)) rfl ?_
      intro j t j0 j1 ih
      rw [hf m' m j k t j0 j1 k0 k1, if_neg (fun hh => e hh.1), ih]
  have := forRange_inv (lo := 0) (hi := M) (by omega) (fun m b => forRange 0 c.s.nZeta (fun k b => f m k b) b) b
    (fun (j : Int) (t : Int → ℝ) => m < j → t (ySlot c m q + k) = y m k q) (by intro; omega) (by
      intro j t j0 j1 ih hmj
      rw [inner j t]
      by_cases e : m = j
      · rw [if_pos e]
      · rw [if_neg e]; exact ih (by omega))
  exact this m1

/-- the library's analysis of a stored slot, against the toroidal basis -/
theorem r2c_slot (h : Good c) (hl : Spec.Documented lib c.s.nZeta (kBatch * c.s.mpol)) (m n : Int) (q : Slot) (b : Int → ℝ)
    (o : Int → Cpx) (y : Int → ℝ) (hm0 : 0 ≤ m) (hm1 : m < c.s.mpol) (n0 : 0 ≤ n) (n1 : n ≤ c.s.ntor)
    (hb : ∀ k, 0 ≤ k → k < c.s.nZeta → b (ySlot c m q + k) = y k) :
    (lib.r2c b o (xSlot c m q + n)).re = ∑ k ∈ Ico 0 c.s.nZeta, y k * (torAt c k n).cosnv ∧
    (lib.r2c b o (xSlot c m q + n)).im = -∑ k ∈ Ico 0 c.s.nZeta, y k * (torAt c k n).sinnv := by
  obtain ⟨s1, s2⟩ := slot_lt (c := c) q hm0 hm1
  have hlt := h.half_lt
  rw [h.half] at hlt
  unfold xSlot
  rw [h.half, hl.r2c _ _ _ _ s1 s2 n0 (by omega)]
  have e : (if n = 0 then (1:ℝ) else Real.sqrt 2) = scale n := rfl
  rw [e]
  unfold Spec.analysis
  dsimp only
  constructor
  · rw [Finset.mul_sum]
    refine Finset.sum_congr rfl fun k hk => ?_
    rw [Finset.mem_Ico] at hk
    have hb' := hb k hk.1 hk.2
    unfold ySlot at hb'
    rw [hb', torAt_eq h hk.1 hk.2 n0 n1, cos_arg]
    unfold torEntry
    ring
  · rw [mul_neg, Finset.mul_sum]
    congr 1
    refine Finset.sum_congr rfl fun k hk => ?_
    rw [Finset.mem_Ico] at hk
    have hb' := hb k hk.1 hk.2
    unfold ySlot at hb'
    rw [hb', torAt_eq h hk.1 hk.2 n0 n1, sin_arg]
    unfold torEntry
    ring

/-- even sums: real part and derivative -/
theorem evenPart (h : Good c) (n : Int) (n0 : 0 ≤ n) (n1 : n ≤ c.s.ntor) (y yn : Int → ℝ) (F G : Cpx)
    (hF : F.re = ∑ k ∈ Ico 0 c.s.nZeta, y k * (torAt c k n).cosnv) (hG : G.im = -∑ k ∈ Ico 0 c.s.nZeta, yn k * (torAt c k n).sinnv) :
    F.re + (n * c.s.nfp : ℝ) * G.im = ∑ k ∈ Ico 0 c.s.nZeta, (y k * (torAt c k n).cosnv + yn k * (torAt c k n).sinnvn) := by
  rw [hF, hG, Finset.sum_add_distrib]
  congr 1
  rw [mul_neg, Finset.mul_sum, ← Finset.sum_neg_distrib]
  refine Finset.sum_congr rfl fun k hk => ?_
  rw [Finset.mem_Ico] at hk
  rw [torAt_eq h hk.1 hk.2 n0 n1]
  unfold torEntry
  ring

theorem oddPart (h : Good c) (n : Int) (n0 : 0 ≤ n) (n1 : n ≤ c.s.ntor) (y yn : Int → ℝ) (F G : Cpx)
    (hF : F.im = -∑ k ∈ Ico 0 c.s.nZeta, y k * (torAt c k n).sinnv) (hG : G.re = ∑ k ∈ Ico 0 c.s.nZeta, yn k * (torAt c k n).cosnv) :
    -F.im + (n * c.s.nfp : ℝ) * G.re = ∑ k ∈ Ico 0 c.s.nZeta, (y k * (torAt c k n).sinnv + yn k * (torAt c k n).cosnvn) := by
  rw [hF, hG, Finset.sum_add_distrib, neg_neg]
  congr 1
  rw [Finset.mul_sum]
  refine Finset.sum_congr rfl fun k hk => ?_
  rw [Finset.mem_Ico] at hk
  rw [torAt_eq h hk.1 hk.2 n0 n1]
  unfold torEntry
  ring

/-- the slots hold the analysis of the plane sums `y` -/
def Analysed (c : Ctx) (n : Int) (y : Int → Slot → ℝ) (F : Slot → Cpx) (q : Slot) : Prop :=
  (F q).re = ∑ k ∈ Ico 0 c.s.nZeta, y k q * (torAt c k n).cosnv ∧ (F q).im = -∑ k ∈ Ico 0 c.s.nZeta, y k q * (torAt c k n).sinnv

theorem addRZFft_eq (h : Good c) (jF m n : Int) (n0 : 0 ≤ n) (n1 : n ≤ c.s.ntor) (y : Int → Slot → ℝ) (F : Slot → Cpx)
    (hF : ∀ q, Analysed c n y F q) (f : Coef → Int → ℝ) :
    addRZFft c jF m n F f = f + ∑ k ∈ Ico 0 c.s.nZeta, rzSum c jF m k n (y k) := by
  unfold addRZFft rzSum
  dsimp only
  simp only [addTo_eq, Finset.sum_add_distrib]
  simp only [← single_sum]
  rw [evenPart h n n0 n1 (fun k => y k .rmkcc) (fun k => y k .rmkcc_n) _ _ (hF _).1 (hF _).2,
    oddPart h n n0 n1 (fun k => y k .rmkss) (fun k => y k .rmkss_n) _ _ (hF _).2 (hF _).1,
    evenPart h n n0 n1 (fun k => y k .zmksc) (fun k => y k .zmksc_n) _ _ (hF _).1 (hF _).2,
    oddPart h n n0 n1 (fun k => y k .zmkcs) (fun k => y k .zmkcs_n) _ _ (hF _).2 (hF _).1]
  abel

theorem addLFft_eq (h : Good c) (jF m n : Int) (n0 : 0 ≤ n) (n1 : n ≤ c.s.ntor) (y : Int → Slot → ℝ) (F : Slot → Cpx)
    (h1 : Analysed c n y F .lmksc) (h2 : Analysed c n y F .lmkcs) (h3 : Analysed c n y F .lmksc_n)
    (h4 : Analysed c n y F .lmkcs_n) (f : Coef → Int → ℝ) :
    addLFft c jF m n F f = f + ∑ k ∈ Ico 0 c.s.nZeta, lSum c jF m k n (y k) := by
  unfold addLFft lSum
  dsimp only
  simp only [addTo_eq, Finset.sum_add_distrib]
  simp only [← single_sum]
  rw [evenPart h n n0 n1 (fun k => y k .lmksc) (fun k => y k .lmksc_n) _ _ h1.1 h3.2,
    oddPart h n n0 n1 (fun k => y k .lmkcs) (fun k => y k .lmkcs_n) _ _ h2.2 h4.1]
  abel

theorem forcesToFourierFft_eq (h : Good c) (hl : Spec.Documented lib c.s.nZeta (kBatch * c.s.mpol))
    (d : FArr → Bool → Int → ℝ) (b : Int → ℝ) (o : Int → Cpx) :
    forcesToFourierFft c lib d b o = forcesToFourierDft c d := by
  have hp := h.mpol
  rw [forcesToFourierDft_eq]
  unfold forcesToFourierFft
  dsimp only
  have first : (forRange c.r.nsMinF (jMaxRZ c) (fun jF (st : (Int → ℝ) × (Int → Cpx) × (Coef → Int → ℝ)) =>
      (fillForces c d jF st.1, lib.r2c (fillForces c d jF st.1) st.2.1,
        forRange 0 (mMax c jF) (fun m f => gather c jF m (fun q n => lib.r2c (fillForces c d jF st.1) st.2.1
          (xSlot c m q + n)) f) st.2.2)) (b, o, fun _ _ => 0)).2.2 =
      ∑ jF ∈ Ico c.r.nsMinF (jMaxRZ c), ∑ m ∈ Ico 0 (mMax c jF), ∑ n ∈ Ico 0 (c.s.ntor + 1), ∑ k ∈ Ico 0 c.s.nZeta,
        (rzSum c jF m k n (polSums c d jF m k) + if 1 ≤ jF then lSum c jF m k n (polSums c d jF m k) else 0) := by
    rcases le_total (jMaxRZ c) c.r.nsMinF with hle | hle
    · rw [forRange_empty hle, Finset.Ico_eq_empty (by omega), Finset.sum_empty]; rfl
    refine forRange_inv (lo := c.r.nsMinF) (hi := jMaxRZ c) hle _ _
      (fun (j : Int) (st : (Int → ℝ) × (Int → Cpx) × (Coef → Int → ℝ)) => st.2.2 =
        ∑ jF ∈ Ico c.r.nsMinF j, ∑ m ∈ Ico 0 (mMax c jF), ∑ n ∈ Ico 0 (c.s.ntor + 1), ∑ k ∈ Ico 0 c.s.nZeta,
          (rzSum c jF m k n (polSums c d jF m k) + if 1 ≤ jF then lSum c jF m k n (polSums c d jF m k) else 0)) ?_ ?_
    · rw [Finset.Ico_self, Finset.sum_empty]; rfl
    intro j st h1 h2 ih
    dsimp only
    rw [sum_Ico_int_succ h1, ← ih]
    refine loop_add _ _ ?_ _
    intro m f m0 m1
    have hm : m < c.s.mpol := by unfold mMax at m1; split at m1 <;> omega
    have hA : ∀ n, 0 ≤ n → n ≤ c.s.ntor → ∀ q, Analysed c n (fun k => polSums c d j m k)
        (fun q => lib.r2c (fillForces c d j st.1) st.2.1 (xSlot c m q + n)) q := by
      intro n n0 n1 q
      refine r2c_slot h hl m n q _ _ (fun k => polSums c d j m k q) m0 hm n0 n1 ?_
      intro k k0 k1
      unfold fillForces
      exact stored (c := c) (mMax c j) (fun m k b => storeRow c m k (polSums c d j m k) b) (fun m k => polSums c d j m k) q
        (fun m m' k k' b a1 a2 a3 a4 => storeRow_apply m m' k k' q _ b a1 a2 a3 a4) _ m k m0 m1 k0 k1
    unfold gather
    dsimp only
    simp only [Finset.sum_add_distrib]
    have e1 := loop_add (lo := 0) (hi := c.s.ntor + 1) (fun n f => addRZFft c j m n
      (fun q => lib.r2c (fillForces c d j st.1) st.2.1 (xSlot c m q + n)) f)
      (fun n => ∑ k ∈ Ico 0 c.s.nZeta, rzSum c j m k n (polSums c d j m k))
      (fun n f n0 n1 => addRZFft_eq h j m n n0 (by omega) _ _ (hA n n0 (by omega)) f) f
    have e2 := fun f => loop_add (lo := 0) (hi := c.s.ntor + 1) (fun n f => addLFft c j m n
      (fun q => lib.r2c (fillForces c d j st.1) st.2.1 (xSlot c m q + n)) f)
      (fun n => ∑ k ∈ Ico 0 c.s.nZeta, lSum c j m k n (polSums c d j m k))
      (fun n f n0 n1 => addLFft_eq h j m n n0 (by omega) _ _ (hA n n0 (by omega) _) (hA n n0 (by omega) _) (hA n n0 (by omega) _)
          (hA n n0 (by omega) _) f) f
    rw [e1]
    split
    · rw [e2, add_assoc]
    · simp only [Finset.sum_const_zero, add_zero]
  rcases le_total c.r.nsMaxFIncludingLcfs (jMaxRZ c) with hle | hle
  · rw [forRange_empty hle, Finset.Ico_eq_empty (by omega) (a := jMaxRZ c), Finset.sum_empty, add_zero]
    exact first
  refine forRange_inv (lo := jMaxRZ c) (hi := c.r.nsMaxFIncludingLcfs) hle _ _
    (fun (j : Int) (st : (Int → ℝ) × (Int → Cpx) × (Coef → Int → ℝ)) => st.2.2 = _ +
      ∑ jF ∈ Ico (jMaxRZ c) j, ∑ m ∈ Ico 0 c.s.mpol, ∑ n ∈ Ico 0 (c.s.ntor + 1), ∑ k ∈ Ico 0 c.s.nZeta,
        lSum c jF m k n (polSums c d jF m k)) ?_ ?_
  · rw [Finset.Ico_self, Finset.sum_empty, add_zero]
    exact first
  intro j st h1 h2 ih
  dsimp only
  rw [sum_Ico_int_succ h1, ← add_assoc, ← ih]
  refine loop_add _ _ ?_ _
  intro m f m0 m1
  refine loop_add _ _ ?_ _
  intro n f n0 n1
  have hA : ∀ q : Slot, (q = .lmksc ∨ q = .lmkcs ∨ q = .lmksc_n ∨ q = .lmkcs_n) → Analysed c n (fun k => polSums c d j m k)
      (fun q => lib.r2c (forRange 0 c.s.mpol (fun m b => forRange 0 c.s.nZeta (fun k b =>
        storeLambda c m k (polSums c d j m k) b) b) st.1) st.2.1 (xSlot c m q + n)) q := by
    intro q hq
    refine r2c_slot h hl m n q _ _ (fun k => polSums c d j m k q) m0 m1 n0 (by omega) ?_
    intro k k0 k1
    exact stored (c := c) c.s.mpol (fun m k b => storeLambda c m k (polSums c d j m k) b) (fun m k => polSums c d j m k) q
      (fun m m' k k' b a1 a2 a3 a4 => storeLambda_apply m m' k k' q _ b a1 a2 a3 a4 hq) _ m k m0 m1 k0 k1
  exact addLFft_eq h j m n n0 (by omega) _ _ (hA _ (by simp)) (hA _ (by simp)) (hA _ (by simp)) (hA _ (by simp)) f

end Verif.Transform
