import Verif.Coeffs.SpectralWidth
import Verif.Coeffs.Props
import Verif.Partition.Props
import Mathlib.Tactic

/-!
# C99: spectral width
-/
namespace Verif.Coeffs
open Verif Verif.Partition

/-! ## specification -/

/-- Fourier coefficients of `R` and `Z` of one surface in the physical product basis: `cos(m θ) cos(n ζ)`, `sin sin`, `sin cos`, `cos sin` for `R`, and `sin cos`, `cos sin`, `cos cos`, `sin sin` for
    `Z` -/
structure Harmonics where
  rcc : ℝ
  rss : ℝ
  rsc : ℝ
  rcs : ℝ
  zsc : ℝ
  zcs : ℝ
  zcc : ℝ
  zss : ℝ

/-- squared amplitude of a mode -/
def Harmonics.power (h : Harmonics) : ℝ := h.rcc ^ 2 + h.rss ^ 2 + h.rsc ^ 2 + h.rcs ^ 2 + h.zsc ^ 2 + h.zcs ^ 2 + h.zcc ^ 2 + h.zss ^ 2

/-- `M(p, q)` of Hirshman and Breslau: the average of `m^q`, weighted with `m^p` times the squared amplitude, over the modes with `m > 0` -/
noncomputable def specWidth (mpol ntor : Int) (p q : ℕ) (h : Int → Int → Harmonics) : ℝ :=
  (∑ m ∈ Finset.Ico 1 mpol, ∑ n ∈ Finset.Ico 0 (ntor + 1), (h m n).power * (m : ℝ) ^ (p + q)) / ∑ m ∈ Finset.Ico 1 mpol, ∑ n ∈ Finset.Ico 0 (ntor + 1), (h m n).power * (m : ℝ) ^ p

/-- the physical coefficients that a state vector stands for: basis functions of the code have the factors `mscale`, `nscale`; in the state, `rss` and `zcs` with `m = 1` are half the sum and difference
    of the physical ones, likewise `rsc` and `zcc`; arrays that are not allocated stand for zero -/
noncomputable def physical (x : Ctx) (mscale nscale : Int → ℝ) (s : State) (j m n : Int) : Harmonics :=
  let k := mscale m * nscale n
  let v (c : F) := s c (x.idx j m n)
  { rcc := v .rcc * k
    zsc := v .zsc * k
    rss := if x.lthreed then (if m = 1 then v .rss + v .zcs else v .rss) * k else 0
    zcs := if x.lthreed then (if m = 1 then v .rss - v .zcs else v .zcs) * k else 0
    rsc := if x.lasym then (if m = 1 then v .rsc + v .zcc else v .rsc) * k else 0
    zcc := if x.lasym then (if m = 1 then v .rsc - v .zcc else v .zcc) * k else 0
    rcs := if x.lasym && x.lthreed then v .rcs * k else 0
    zss := if x.lasym && x.lthreed then v .zss * k else 0 }

/-! ## one surface -/

theorem norm_power (x : Ctx) (mscale nscale : Int → ℝ) (s : State) (j m n : Int) : coefficientNorm x mscale nscale s j m n = (physical x mscale nscale s j m n).power := by
  unfold coefficientNorm physical Harmonics.power
  by_cases h3 : x.lthreed <;> by_cases hl : x.lasym <;> by_cases hm : m = 1 <;> simp [h3, hl, hm] <;> ring

theorem power_nonneg (h : Harmonics) : 0 ≤ h.power := by unfold Harmonics.power; positivity

theorem sums_eq (x : Ctx) (mscale nscale : Int → ℝ) (p q : ℕ) (s : State) (jF : Int) :
    (forRange 1 x.mpol (fun m a => forRange 0 (x.ntor + 1) (fun n a =>
      a + (coefficientNorm x mscale nscale s jF m n * (m : ℝ) ^ (p + q), coefficientNorm x mscale nscale s jF m n * (m : ℝ) ^ p)) a) ((0 : ℝ), (0 : ℝ))) =
    (∑ m ∈ Finset.Ico 1 x.mpol, ∑ n ∈ Finset.Ico 0 (x.ntor + 1), (physical x mscale nscale s jF m n).power * (m : ℝ) ^ (p + q),
      ∑ m ∈ Finset.Ico 1 x.mpol, ∑ n ∈ Finset.Ico 0 (x.ntor + 1), (physical x mscale nscale s jF m n).power * (m : ℝ) ^ p) := by
  simp only [forRange_add, norm_power]
  rw [← Prod.zero_eq_mk, zero_add]
  refine Prod.ext ?_ ?_
  · rw [Prod.fst_sum]; exact Finset.sum_congr rfl fun m _ => by rw [Prod.fst_sum]
  · rw [Prod.snd_sum]; exact Finset.sum_congr rfl fun m _ => by rw [Prod.snd_sum]

/-- what the routine leaves in the profile -/
theorem width_at (x : Ctx) (hx : x.nsMin = x.nsMinF1) (h0 : 0 ≤ x.nsMin) (mscale nscale : Int → ℝ) (p q : ℕ) (s : State) (prof : Int → ℝ) (j : Int) (hj : x.nsMin ≤ j) (hj' : j < x.nsMax) :
    computeSpectralWidth x mscale nscale p q s prof (j - x.nsMinF1) = if j = 0 then 1 else specWidth x.mpol x.ntor p q (physical x mscale nscale s j) := by
  unfold computeSpectralWidth
  simp only [sums_eq]
  set lo : Int := if x.nsMin = 0 then 1 else x.nsMin with hlo
  have hlo' : lo ≤ x.nsMax := by rw [hlo]; split_ifs <;> omega
  have key := forRange_inv hlo' (fun jF (prof : Int → ℝ) => upd prof (jF - x.nsMinF1)
      ((∑ m ∈ Finset.Ico 1 x.mpol, ∑ n ∈ Finset.Ico 0 (x.ntor + 1), (physical x mscale nscale s jF m n).power * (m : ℝ) ^ (p + q)) /
        ∑ m ∈ Finset.Ico 1 x.mpol, ∑ n ∈ Finset.Ico 0 (x.ntor + 1), (physical x mscale nscale s jF m n).power * (m : ℝ) ^ p))
    (if x.nsMin = 0 then upd prof (x.nsMin - x.nsMinF1) 1 else prof)
    (fun k (pr : Int → ℝ) => (x.nsMin = 0 → pr (0 - x.nsMinF1) = 1) ∧ ∀ j, lo ≤ j → j < k → pr (j - x.nsMinF1) = specWidth x.mpol x.ntor p q (physical x mscale nscale s j))
    ⟨fun hz => by rw [if_pos hz, hz, upd_same], fun j a b => by omega⟩
    (by
      intro i st hi hi' ⟨h1, h2⟩
      refine ⟨fun hz => ?_, fun j a b => ?_⟩
      · have : lo = 1 := by rw [hlo, if_pos hz]
        rw [upd_ne _ _ (by omega)]; exact h1 hz
      · by_cases e : j = i
        · subst e; rw [upd_same]; rfl
        · rw [upd_ne _ _ (by omega)]; exact h2 j a (by omega))
  by_cases e : j = 0
  · subst e
    rw [if_pos rfl]
    exact key.1 (by omega)
  · rw [if_neg e]
    refine key.2 j ?_ hj'
    rw [hlo]; split_ifs <;> omega

/-- **C99** (definition): on every surface of the thread the profile holds the spectral width `M(p, q)` of the physical coefficients of the state, and 1 on the axis. -/
theorem C99_surface (x : Ctx) (hx : x.nsMin = x.nsMinF1) (h0 : 0 ≤ x.nsMin) (mscale nscale : Int → ℝ) (p q : ℕ) (s : State) (prof : Int → ℝ) (j : Int) (hj : x.nsMin ≤ j) (hj' : j < x.nsMax) :
    (j = 0 → computeSpectralWidth x mscale nscale p q s prof (j - x.nsMinF1) = 1) ∧
      (j ≠ 0 → computeSpectralWidth x mscale nscale p q s prof (j - x.nsMinF1) = specWidth x.mpol x.ntor p q (physical x mscale nscale s j)) := by
  have h := width_at x hx h0 mscale nscale p q s prof j hj hj'
  exact ⟨fun e => by rw [h, if_pos e], fun e => by rw [h, if_neg e]⟩

/-- **C99** (coefficients): with the default exponents nothing is lost in the gauge of the `m = 1` modes: the coefficients that enter are those of `m1Constraint` with factor 1, which the code applies before
    the transforms. -/
theorem C99_gauge (x : Ctx) (hM : 2 ≤ x.mpol) (mscale nscale : Int → ℝ) (s : State) (j m n : Int) (h : x.isMode m n) (hj : x.nsMin ≤ j) (hj' : j < x.nsMax) :
    (physical x mscale nscale s j m n).power =
      ((m1Constraint x 1 none s .rcc (x.idx j m n)) ^ 2 + (m1Constraint x 1 none s .zsc (x.idx j m n)) ^ 2 +
        (if x.lthreed then (m1Constraint x 1 none s .rss (x.idx j m n)) ^ 2 + (m1Constraint x 1 none s .zcs (x.idx j m n)) ^ 2 else 0) +
        (if x.lasym then (m1Constraint x 1 none s .rsc (x.idx j m n)) ^ 2 + (m1Constraint x 1 none s .zcc (x.idx j m n)) ^ 2 else 0) +
        (if x.lasym && x.lthreed then (m1Constraint x 1 none s .rcs (x.idx j m n)) ^ 2 + (m1Constraint x 1 none s .zss (x.idx j m n)) ^ 2 else 0)) * (mscale m * nscale n) ^ 2 := by
  have h1 := m1_col x hM 1 none s j m n h.1 h.2.1 h.2.2.1 h.2.2.2
  have g : ∀ c, m1Constraint x 1 none s c (x.idx j m n) = (if m = 1 then mixF x 1 (fun c => s c (x.idx j m n)) else fun c => s c (x.idx j m n)) c := by
    intro c
    have := congrFun h1 c
    simp only [Ctx.m1Max, hj, hj', true_and] at this
    exact this
  simp only [g]
  unfold physical Harmonics.power
  by_cases h3 : x.lthreed <;> by_cases hl : x.lasym <;> by_cases hm : m = 1 <;> simp [h3, hl, hm, mixF] <;> ring

/-- **C99** (bounds): if there is any amplitude with `m > 0`, the spectral width for `q = 1` lies between 1 and the largest poloidal mode number. -/
theorem C99_bounds {mpol ntor : Int} {p : ℕ} {h : Int → Int → Harmonics} {m n : Int} (hm : 1 ≤ m) (hm' : m < mpol) (hn : 0 ≤ n) (hn' : n ≤ ntor) (hp : (h m n).power ≠ 0) :
    1 ≤ specWidth mpol ntor p 1 h ∧ specWidth mpol ntor p 1 h ≤ mpol - 1 := by
  have hpos : 0 < ∑ m ∈ Finset.Ico 1 mpol, ∑ n ∈ Finset.Ico 0 (ntor + 1), (h m n).power * (m : ℝ) ^ p := by
    have nn : ∀ a ∈ Finset.Ico 1 mpol, 0 ≤ ∑ n ∈ Finset.Ico 0 (ntor + 1), (h a n).power * (a : ℝ) ^ p := fun a ha =>
      Finset.sum_nonneg fun b _ => mul_nonneg (power_nonneg _) (pow_nonneg (by have := (Finset.mem_Ico.1 ha).1; exact_mod_cast (by omega : (0 : Int) ≤ a)) _)
    refine Finset.sum_pos' nn ⟨m, Finset.mem_Ico.2 ⟨hm, hm'⟩, ?_⟩
    have hm0 : (0 : ℝ) < m := by exact_mod_cast (by omega : (0 : Int) < m)
    exact Finset.sum_pos' (fun b _ => mul_nonneg (power_nonneg _) (pow_nonneg hm0.le _)) ⟨n, Finset.mem_Ico.2 ⟨hn, by omega⟩, mul_pos (lt_of_le_of_ne (power_nonneg _) (Ne.symm hp)) (pow_pos hm0 _)⟩
  unfold specWidth
  constructor
  · rw [le_div_iff₀ hpos, one_mul]
    refine Finset.sum_le_sum fun a ha => Finset.sum_le_sum fun b _ => mul_le_mul_of_nonneg_left ?_ (power_nonneg _)
    have h1 : (1 : ℝ) ≤ a := by exact_mod_cast (Finset.mem_Ico.1 ha).1
    exact pow_le_pow_right₀ h1 (Nat.le_succ p)
  · rw [div_le_iff₀ hpos, Finset.mul_sum]
    refine Finset.sum_le_sum fun a ha => ?_
    rw [Finset.mul_sum]
    refine Finset.sum_le_sum fun b _ => ?_
    obtain ⟨ha1, ha2⟩ := Finset.mem_Ico.1 ha
    have h1 : (0 : ℝ) ≤ a := by exact_mod_cast (by omega : (0 : Int) ≤ a)
    have h2 : (a : ℝ) ≤ mpol - 1 := by
      have : a ≤ mpol - 1 := by omega
      exact_mod_cast this
    calc (h a b).power * (a : ℝ) ^ (p + 1) = (a : ℝ) * ((h a b).power * (a : ℝ) ^ p) := by ring
      _ ≤ (mpol - 1) * ((h a b).power * (a : ℝ) ^ p) := mul_le_mul_of_nonneg_right h2 (mul_nonneg (power_nonneg _) (pow_nonneg h1 _))

/-! ## volume average -/

theorem fold_pair (f : Int → ℝ × ℝ) (l : List Int) (a : ℝ × ℝ) : l.foldl (fun acc t => (acc.1 + (f t).1, acc.2 + (f t).2)) a = a + (l.map f).sum := by
  induction l generalizing a with
  | nil => simp
  | cons t l ih => rw [List.foldl_cons, ih, List.map_cons, List.sum_cons, ← add_assoc]; rfl

theorem team_width {nt ns : Int} {lfreeb : Bool} {R : Int → Ranges} (hns : 2 ≤ ns) (hnt : 1 ≤ nt) (hT : Team nt ns lfreeb R) (width dV : Int → ℝ) (prof dVt : Int → Int → ℝ)
    (hw : ∀ t, isThread nt t → ∀ j, (R t).nsMinF1 ≤ j → j < (R t).nsMaxF1 → prof t (j - (R t).nsMinF1) = width j)
    (hV : ∀ t, isThread nt t → ∀ j, (R t).nsMinH ≤ j → j < (R t).nsMaxH → dVt t (j - (R t).nsMinH) = dV j) (order : List Int) (ho : order.Perm (irange 0 nt)) :
    volumeAveragedSpectralWidth (fun t => widthContribution ns (R t) (prof t) (dVt t)) order =
      (∑ h ∈ Finset.Ico 0 (ns - 1), (width (h + 1) + width h) / 2 * dV h) / ∑ h ∈ Finset.Ico 0 (ns - 1), dV h := by
  have e : ∀ t ∈ Finset.Ico 0 nt, widthContribution ns (R t) (prof t) (dVt t) = localHalfSum ns (R t) fun h => ((width (h + 1) + width h) / 2 * dV h, dV h) := by
    intro t ht
    have ht' : isThread nt t := Finset.mem_Ico.1 ht
    have f := team_facts hns hnt hT ht'
    unfold widthContribution
    rw [localHalfSum_eq, localHalfSum_eq]
    refine Finset.sum_congr rfl fun j hj => ?_
    obtain ⟨j0, j1⟩ := Finset.mem_Ico.1 hj
    rw [hw t ht' j (by omega) (by omega), hw t ht' (j + 1) (by omega) (by omega), hV t ht' j j0 j1]
  have hs : (order.map fun t => widthContribution ns (R t) (prof t) (dVt t)).sum = ∑ h ∈ Finset.Ico 0 (ns - 1), ((width (h + 1) + width h) / 2 * dV h, dV h) := by
    rw [(ho.map _).sum_eq, irange_sum, Finset.sum_congr rfl e, C03_integrals nt ns lfreeb R hns hnt hT]
  unfold volumeAveragedSpectralWidth
  simp only [fold_pair, hs]
  rw [← Prod.zero_eq_mk, zero_add, Prod.fst_sum, Prod.snd_sum]

/-- **C99** (volume average): whatever the number of threads and the order in which they register their contributions, the printed `<M>` is the average of the spectral width over the volume, with the
    width on the half grid the mean of the two neighbouring surfaces; every half-grid surface counts once.  The threads agree on the coefficients of the surfaces that they share. -/
theorem C99_average {nt ns : Int} {lfreeb : Bool} {R : Int → Ranges} (hns : 2 ≤ ns) (hnt : 1 ≤ nt) (hT : Team nt ns lfreeb R) (x : Int → Ctx) (mpol ntor : Int) (p q : ℕ) (mscale nscale : Int → ℝ)
    (hx : ∀ t, isThread nt t → (x t).mpol = mpol ∧ (x t).ntor = ntor ∧ (x t).nsMin = (R t).nsMinF1 ∧ (x t).nsMax = (R t).nsMaxF1 ∧ (x t).nsMinF1 = (R t).nsMinF1) (s : Int → State)
    (H : Int → Int → Int → Harmonics) (hH : ∀ t, isThread nt t → ∀ j, (R t).nsMinF1 ≤ j → j < (R t).nsMaxF1 → physical (x t) mscale nscale (s t) j = H j) (prof dVt : Int → Int → ℝ) (dV : Int → ℝ)
    (hV : ∀ t, isThread nt t → ∀ j, (R t).nsMinH ≤ j → j < (R t).nsMaxH → dVt t (j - (R t).nsMinH) = dV j) (order : List Int) (ho : order.Perm (irange 0 nt)) :
    let width := fun j => if j = 0 then 1 else specWidth mpol ntor p q (H j)
    volumeAveragedSpectralWidth (fun t => widthContribution ns (R t) (computeSpectralWidth (x t) mscale nscale p q (s t) (prof t)) (dVt t)) order =
      (∑ h ∈ Finset.Ico 0 (ns - 1), (width (h + 1) + width h) / 2 * dV h) / ∑ h ∈ Finset.Ico 0 (ns - 1), dV h := by
  intro width
  refine team_width hns hnt hT width dV (fun t => computeSpectralWidth (x t) mscale nscale p q (s t) (prof t)) dVt (fun t ht j j0 j1 => ?_) hV order ho
  show computeSpectralWidth (x t) mscale nscale p q (s t) (prof t) (j - (R t).nsMinF1) = if j = 0 then 1 else specWidth mpol ntor p q (H j)
  obtain ⟨e1, e2, e3, e4, e5⟩ := hx t ht
  have f := team_facts hns hnt hT ht
  have := width_at (x t) (by rw [e3, e5]) (by rw [e3]; omega) mscale nscale p q (s t) (prof t) j (by omega) (by omega)
  rw [e5] at this
  rw [this, hH t ht j j0 j1, e1, e2]

/-- **C99** (bounds of the average): if the volume elements are positive and no surface besides the axis is without amplitude, the average for `q = 1` lies between 1 and the largest poloidal mode
    number. -/
theorem C99_average_bounds {ns mpol ntor : Int} (hns : 2 ≤ ns) (hmp : 2 ≤ mpol) {p : ℕ} {H : Int → Int → Int → Harmonics} {dV : Int → ℝ} (hV : ∀ h, 0 ≤ h → h < ns - 1 → 0 < dV h)
    (hH : ∀ j, 0 < j → j < ns → ∃ m n, 1 ≤ m ∧ m < mpol ∧ 0 ≤ n ∧ n ≤ ntor ∧ (H j m n).power ≠ 0) :
    let width := fun j => if j = 0 then 1 else specWidth mpol ntor p 1 (H j)
    let avg := (∑ h ∈ Finset.Ico 0 (ns - 1), (width (h + 1) + width h) / 2 * dV h) / ∑ h ∈ Finset.Ico 0 (ns - 1), dV h
    1 ≤ avg ∧ avg ≤ mpol - 1 := by
  intro width avg
  have hb : ∀ j, 0 ≤ j → j < ns → 1 ≤ width j ∧ width j ≤ mpol - 1 := by
    intro j j0 j1
    by_cases e : j = 0
    · have : width j = 1 := if_pos e
      rw [this]
      exact ⟨le_rfl, by have : (2 : ℝ) ≤ mpol := by exact_mod_cast hmp
                        linarith⟩
    · obtain ⟨m, n, a, b, c, d, hp⟩ := hH j (by omega) j1
      have : width j = specWidth mpol ntor p 1 (H j) := if_neg e
      rw [this]
      exact C99_bounds a b c d hp
  have hpos : 0 < ∑ h ∈ Finset.Ico 0 (ns - 1), dV h := Finset.sum_pos (fun h hh => hV h (Finset.mem_Ico.1 hh).1 (Finset.mem_Ico.1 hh).2) ⟨0, Finset.mem_Ico.2 ⟨le_rfl, by omega⟩⟩
  show 1 ≤ _ / _ ∧ _ / _ ≤ _
  constructor
  · rw [le_div_iff₀ hpos, Finset.mul_sum]
    refine Finset.sum_le_sum fun h hh => ?_
    obtain ⟨h0, h1⟩ := Finset.mem_Ico.1 hh
    have a := hb h h0 (by omega)
    have b := hb (h + 1) (by omega) (by omega)
    exact mul_le_mul_of_nonneg_right (by linarith) (hV h h0 h1).le
  · rw [div_le_iff₀ hpos, Finset.mul_sum]
    refine Finset.sum_le_sum fun h hh => ?_
    obtain ⟨h0, h1⟩ := Finset.mem_Ico.1 hh
    have a := hb h h0 (by omega)
    have b := hb (h + 1) (by omega) (by omega)
    exact mul_le_mul_of_nonneg_right (by linarith) (hV h h0 h1).le

/-! ## a case -/

/-- one thread, five surfaces -/
def widthCtx : Ctx := { mpol := 4, ntor := 1, lasym := true, nsMin := 0, nsMax := 5, ns := 5, nsMinF1 := 0, nsMaxF1 := 5 }

/-- a state in which all coefficients are one -/
example : computeSpectralWidth widthCtx (fun _ => 1) (fun _ => 1) 4 1 (fun _ _ => 1) (fun _ => 0) (2 - 0) = specWidth 4 1 4 1 (physical widthCtx (fun _ => 1) (fun _ => 1) (fun _ _ => 1) 2) :=
  (C99_surface widthCtx rfl (by decide) _ _ 4 1 _ _ 2 (by decide) (by decide)).2 (by decide)
example : 1 ≤ specWidth 4 1 4 1 (physical widthCtx (fun _ => 1) (fun _ => 1) (fun _ _ => 1) 2) ∧ specWidth 4 1 4 1 (physical widthCtx (fun _ => 1) (fun _ => 1) (fun _ _ => 1) 2) ≤ ((4 : Int) : ℝ) - 1 :=
  C99_bounds (m := 1) (n := 0) (by decide) (by decide) (by decide) (by decide) (by unfold physical Harmonics.power widthCtx Ctx.lthreed; norm_num)
/-- a team of two threads on six surfaces, each with the part of the same state -/
example : ∃ R, Team 2 6 false R ∧ ∀ order : List Int, order.Perm (irange 0 2) →
    volumeAveragedSpectralWidth (fun t => widthContribution 6 (R t) (computeSpectralWidth { widthCtx with nsMin := (R t).nsMinF1, nsMax := (R t).nsMaxF1, nsMinF1 := (R t).nsMinF1, nsMaxF1 := (R t).nsMaxF1 }
      (fun _ => 1) (fun _ => 1) 4 1 (fun _ _ => 1) (fun _ => 0)) (fun _ => 1)) order =
    (∑ h ∈ Finset.Ico (0 : Int) (6 - 1), ((if h + 1 = 0 then 1 else specWidth 4 1 4 1 (physical widthCtx (fun _ => 1) (fun _ => 1) (fun _ _ => 1) (h + 1))) +
      (if h = 0 then 1 else specWidth 4 1 4 1 (physical widthCtx (fun _ => 1) (fun _ => 1) (fun _ _ => 1) h))) / 2 * 1) / ∑ h ∈ Finset.Ico (0 : Int) (6 - 1), (1 : ℝ) := by
  obtain ⟨R, hR⟩ := C01_team_exists 2 6 false (by decide) (by decide) (by decide)
  refine ⟨R, hR, fun order ho => ?_⟩
  exact C99_average (by decide) (by decide) hR (fun t => { widthCtx with nsMin := (R t).nsMinF1, nsMax := (R t).nsMaxF1, nsMinF1 := (R t).nsMinF1, nsMaxF1 := (R t).nsMaxF1 }) 4 1 4 1 (fun _ => 1) (fun _ => 1) (fun t _ => ⟨rfl, rfl, rfl, rfl, rfl⟩) (fun _ _ _ => 1)
    (fun j => physical widthCtx (fun _ => 1) (fun _ => 1) (fun _ _ => 1) j) (fun t _ j _ _ => rfl) (fun _ _ => 0) (fun _ _ => 1) (fun _ => 1) (fun _ _ _ _ _ => rfl) order ho

end Verif.Coeffs
