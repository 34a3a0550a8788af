import Verif.Coeffs.Residuals
import Verif.Coeffs.Props
import Verif.Partition.Props
import Mathlib.Tactic

/-!
# C101: force residuals, virtual work, and the steps on the force
-/
namespace Verif.Coeffs
open Verif Verif.Partition

/-! ## specification -/

/-- sum of the squares of the four harmonics of one quantity in the product basis, as far as the symmetry has them: `a` is the one that is always there, `b` needs a toroidal dependence, `c` needs the
    non-stellarator-symmetric part, `d` both -/
noncomputable def power4 (lthreed lasym : Bool) (a b c d : ℝ) : ℝ :=
  a ^ 2 + (if lthreed then b ^ 2 else 0) + (if lasym then c ^ 2 else 0) + if lthreed ∧ lasym then d ^ 2 else 0

noncomputable def rPower (h3 hl : Bool) (v : F → ℝ) : ℝ := power4 h3 hl (v .rcc) (v .rss) (v .rsc) (v .rcs)
noncomputable def zPower (h3 hl : Bool) (v : F → ℝ) : ℝ := power4 h3 hl (v .zsc) (v .zcs) (v .zcc) (v .zss)
noncomputable def lPower (h3 hl : Bool) (v : F → ℝ) : ℝ := power4 h3 hl (v .lsc) (v .lcs) (v .lcc) (v .lss)

theorem power4_nonneg (h3 hl : Bool) (a b c d : ℝ) : 0 ≤ power4 h3 hl a b c d := by
  unfold power4; split_ifs <;> positivity

/-- sum over the modes of a surface -/
noncomputable def modeSum (mpol ntor : Int) (f : Int → Int → ℝ) : ℝ := ∑ m ∈ Finset.Ico 0 mpol, ∑ n ∈ Finset.Ico 0 (ntor + 1), f m n

/-! ## partition of the rows that a thread counts -/

theorem touches_edge {nt ns : Int} {lfreeb : Bool} {R : Int → Ranges} (hns : 2 ≤ ns) (hnt : 1 ≤ nt) (hT : Team nt ns lfreeb R) {t : Int} (ht : isThread nt t) :
    (R t).nsMaxF1 = ns ↔ t = nt - 1 := by
  have hn : 0 ≤ numSurfacesToDistribute ns lfreeb := n_nonneg (by omega)
  have hp : 0 < nt := by omega
  have f := team_facts hns hnt hT ht
  have hle := split_le hn hp ht.2
  have hmax := splitMax_eq_succ hn hp t
  have hlast := splitMin_last hn hp
  have hN : numSurfacesToDistribute ns lfreeb = if lfreeb then ns else ns - 1 := rfl
  constructor
  · intro h
    by_contra hne
    have h1 : t + 1 ≤ nt - 1 := by have := ht.2; omega
    have hle' := split_le hn hp (t := t + 1) (by omega)
    cases lfreeb
    · simp only [Bool.false_eq_true, if_false] at hN
      have g := split_ge hn hp (k := 1) (by omega) (t + 1)
      omega
    · simp only [if_true] at hN
      have g := split_ge hn hp (k := 2) (by omega) (t + 1)
      omega
  · intro h
    subst h
    rw [show nt - 1 + 1 = nt by omega] at hmax
    cases lfreeb
    · simp only [Bool.false_eq_true, if_false] at hN; omega
    · simp only [if_true] at hN; omega

theorem row_owner {nt ns : Int} {lfreeb : Bool} {R : Int → Ranges} (hns : 2 ≤ ns) (hnt : 1 ≤ nt) (hT : Team nt ns lfreeb R) {j : Int} (h0 : 0 ≤ j) (h1 : j < ns) :
    ∃ t, (isThread nt t ∧ (R t).nsMinF ≤ j ∧ j < (R t).nsMaxFIncludingLcfs) ∧ ∀ t', isThread nt t' → (R t').nsMinF ≤ j → j < (R t').nsMaxFIncludingLcfs → t' = t := by
  have hn : 0 ≤ numSurfacesToDistribute ns lfreeb := n_nonneg (by omega)
  have hp : 0 < nt := by omega
  have hN : numSurfacesToDistribute ns lfreeb = if lfreeb then ns else ns - 1 := rfl
  have hN' : ns - 1 ≤ numSurfacesToDistribute ns lfreeb ∧ numSurfacesToDistribute ns lfreeb ≤ ns := by
    rw [hN]; split_ifs <;> omega
  have hlast := splitMin_last hn hp
  have hmaxl : splitMax (numSurfacesToDistribute ns lfreeb) nt (nt - 1) = numSurfacesToDistribute ns lfreeb := by
    rw [splitMax_eq_succ hn hp, show nt - 1 + 1 = nt by omega, hlast]
  -- what a thread counts: its own surfaces, and for the last thread up to the boundary
  have rows : ∀ t, isThread nt t → (R t).nsMaxFIncludingLcfs = if t = nt - 1 then ns else splitMax (numSurfacesToDistribute ns lfreeb) nt t := by
    intro t ht
    have f := team_facts hns hnt hT ht
    rw [f.2.2.2.2.2.2.2.2.2, f.2.2.1]
    simp only [touches_edge hns hnt hT ht]
  have lastT : isThread nt (nt - 1) := ⟨by omega, by omega⟩
  by_cases hj : j < numSurfacesToDistribute ns lfreeb
  · obtain ⟨t, a, b, c, d⟩ := split_exists hn hp h0 hj
    have ht : isThread nt t := ⟨a, b⟩
    have f := team_facts hns hnt hT ht
    refine ⟨t, ⟨ht, by rw [f.2.1]; exact c, ?_⟩, fun t' ht' h1' h2' => ?_⟩
    · rw [rows t ht]; split_ifs <;> omega
    · have f' := team_facts hns hnt hT ht'
      rw [rows t' ht'] at h2'
      rw [f'.2.1] at h1'
      refine split_unique hn hp h1' ?_ c d
      by_cases e : t' = nt - 1
      · rw [e, hmaxl]; exact hj
      · rwa [if_neg e] at h2'
  · have f := team_facts hns hnt hT lastT
    have hm := splitMin_le_max hn hp (nt - 1)
    refine ⟨nt - 1, ⟨lastT, by rw [f.2.1]; omega, by rw [rows _ lastT, if_pos rfl]; exact h1⟩, fun t' ht' h1' h2' => ?_⟩
    by_contra e
    rw [rows t' ht', if_neg e] at h2'
    have := split_le hn hp ht'.2
    omega

/-- the team counts every surface once -/
theorem rows_sum {M : Type} [AddCommMonoid M] {nt ns : Int} {lfreeb : Bool} {R : Int → Ranges} (hns : 2 ≤ ns) (hnt : 1 ≤ nt) (hT : Team nt ns lfreeb R) (g : Int → M) :
    ∑ t ∈ Finset.Ico 0 nt, ∑ j ∈ Finset.Ico (R t).nsMinF (R t).nsMaxFIncludingLcfs, g j = ∑ j ∈ Finset.Ico 0 ns, g j := by
  have hn : 0 ≤ numSurfacesToDistribute ns lfreeb := n_nonneg (by omega)
  have hp : 0 < nt := by omega
  have step : ∀ t ∈ Finset.Ico 0 nt, ∑ j ∈ Finset.Ico (R t).nsMinF (R t).nsMaxFIncludingLcfs, g j =
      ∑ j ∈ Finset.Ico 0 ns, if (R t).nsMinF ≤ j ∧ j < (R t).nsMaxFIncludingLcfs then g j else 0 := by
    intro t ht
    have ht' : isThread nt t := Finset.mem_Ico.1 ht
    have f := team_facts hns hnt hT ht'
    have a := split_nonneg hn hp ht'.1
    have b := split_le hn hp ht'.2
    have hN : numSurfacesToDistribute ns lfreeb ≤ ns := by unfold numSurfacesToDistribute; split_ifs <;> omega
    have hl := f.2.2.2.2.2.2.2.2.2
    rw [← Finset.sum_filter]
    refine Finset.sum_congr ?_ fun _ _ => rfl
    ext j
    simp only [Finset.mem_filter, Finset.mem_Ico]
    constructor
    · rintro ⟨h1, h2⟩
      refine ⟨⟨by omega, ?_⟩, h1, h2⟩
      rw [hl] at h2; split_ifs at h2 <;> omega
    · exact fun h => h.2
  rw [Finset.sum_congr rfl step, Finset.sum_comm]
  refine Finset.sum_congr rfl fun j hj => ?_
  obtain ⟨j0, j1⟩ := Finset.mem_Ico.1 hj
  obtain ⟨t, ⟨ht, h1, h2⟩, hu⟩ := row_owner hns hnt hT j0 j1
  rw [Finset.sum_eq_single t, if_pos ⟨h1, h2⟩]
  · intro t' ht' hne
    exact if_neg fun h => hne (hu t' (Finset.mem_Ico.1 ht') h.1 h.2)
  · exact fun h => absurd (Finset.mem_Ico.2 ht) h

/-! ## residuals of one thread -/

theorem residualsBody_eq (x : Ctx) (jM : Int) (f : State) (j m n : Int) (a : ℝ × ℝ × ℝ) :
    residualsBody x jM f j m n a = a + (if j < jM then rPower x.lthreed x.lasym fun c => f c (x.idx j m n) else 0,
      if j < jM then zPower x.lthreed x.lasym fun c => f c (x.idx j m n) else 0, lPower x.lthreed x.lasym fun c => f c (x.idx j m n)) := by
  obtain ⟨a, b, c⟩ := a
  unfold residualsBody rPower zPower lPower power4
  by_cases h : j < jM <;> by_cases h3 : x.lthreed <;> by_cases hl : x.lasym <;> simp [h, h3, hl] <;> (try refine ⟨?_, ?_, ?_⟩) <;> ring

theorem residuals_eq (x : Ctx) (edge : Bool) (f : State) :
    residuals x edge f =
      (∑ j ∈ Finset.Ico x.nsMin x.jMaxIncludingBoundary, (if j < x.jMaxRZ edge then modeSum x.mpol x.ntor (fun m n => rPower x.lthreed x.lasym fun c => f c (x.idx j m n)) else 0),
       ∑ j ∈ Finset.Ico x.nsMin x.jMaxIncludingBoundary, (if j < x.jMaxRZ edge then modeSum x.mpol x.ntor (fun m n => zPower x.lthreed x.lasym fun c => f c (x.idx j m n)) else 0),
       ∑ j ∈ Finset.Ico x.nsMin x.jMaxIncludingBoundary, modeSum x.mpol x.ntor (fun m n => lPower x.lthreed x.lasym fun c => f c (x.idx j m n))) := by
  unfold residuals modeSum
  simp only [residualsBody_eq, forRange_add]
  rw [← Prod.zero_eq_mk, ← Prod.zero_eq_mk, zero_add]
  refine Prod.ext ?_ (Prod.ext ?_ ?_)
  · simp only [Prod.fst_sum]
    refine Finset.sum_congr rfl fun j _ => ?_
    split_ifs
    · rfl
    · simp
  · simp only [Prod.snd_sum, Prod.fst_sum]
    refine Finset.sum_congr rfl fun j _ => ?_
    split_ifs
    · rfl
    · simp
  · simp only [Prod.snd_sum]

theorem fold_triple (f : Int → ℝ × ℝ × ℝ) (l : List Int) (a : ℝ × ℝ × ℝ) : l.foldl (fun acc t => (acc.1 + (f t).1, acc.2.1 + (f t).2.1, acc.2.2 + (f t).2.2)) a = a + (l.map f).sum := by
  induction l generalizing a with
  | nil => simp
  | cons t l ih => rw [List.foldl_cons, ih, List.map_cons, List.sum_cons, ← add_assoc]; rfl

/-- **C101** (residuals of the team): whatever the number of threads and the order in which they register, the three residuals are the sums of the squared force harmonics of `R`, `Z` and `λ`. Every surface
    counts once, all `ns` of them for `λ`; the boundary counts for `R` and `Z` exactly if the edge forces are asked for. `G` is the force on all surfaces of the torus, of which each thread holds its part. -/
theorem C101_team {nt ns mpol ntor : Int} {lfreeb lasym : Bool} {R : Int → Ranges} (hns : 2 ≤ ns) (hnt : 1 ≤ nt) (hT : Team nt ns lfreeb R) (edge : Bool) (f : Int → State) (G : F → Int → Int → Int → ℝ)
    (hG : ∀ t, isThread nt t → ∀ j m n c, (R t).nsMinF ≤ j → j < (R t).nsMaxFIncludingLcfs → 0 ≤ m → m < mpol → 0 ≤ n → n ≤ ntor → f t c (((j - (R t).nsMinF) * mpol + m) * (ntor + 1) + n) = G c j m n)
    (order : List Int) (ho : order.Perm (irange 0 nt)) :
    let h3 := decide (0 < ntor)
    teamResiduals (fun t => residuals (forceCtx mpol ntor lasym ns (R t)) edge (f t)) order =
      (∑ j ∈ Finset.Ico 0 (if edge then ns else ns - 1), modeSum mpol ntor (fun m n => rPower h3 lasym fun c => G c j m n),
       ∑ j ∈ Finset.Ico 0 (if edge then ns else ns - 1), modeSum mpol ntor (fun m n => zPower h3 lasym fun c => G c j m n),
       ∑ j ∈ Finset.Ico 0 ns, modeSum mpol ntor (fun m n => lPower h3 lasym fun c => G c j m n)) := by
  intro h3
  set E : Int := if edge then ns else ns - 1 with hE
  have key : ∀ t ∈ Finset.Ico 0 nt, residuals (forceCtx mpol ntor lasym ns (R t)) edge (f t) = ∑ j ∈ Finset.Ico (R t).nsMinF (R t).nsMaxFIncludingLcfs,
      ((if j < E then modeSum mpol ntor (fun m n => rPower h3 lasym fun c => G c j m n) else 0, if j < E then modeSum mpol ntor (fun m n => zPower h3 lasym fun c => G c j m n) else 0,
        modeSum mpol ntor (fun m n => lPower h3 lasym fun c => G c j m n)) : ℝ × ℝ × ℝ) := by
    intro t ht
    have ht' : isThread nt t := Finset.mem_Ico.1 ht
    have ff := team_facts hns hnt hT ht'
    have hl := ff.2.2.2.2.2.2.2.2.2
    have hj : (forceCtx mpol ntor lasym ns (R t)).jMaxIncludingBoundary = (R t).nsMaxFIncludingLcfs := by rw [hl]; rfl
    have hb : (R t).nsMaxF ≤ ns := by
      have b := split_le (n_nonneg (by omega) : 0 ≤ numSurfacesToDistribute ns lfreeb) (by omega : 0 < nt) ht'.2
      have hN : numSurfacesToDistribute ns lfreeb ≤ ns := by unfold numSurfacesToDistribute; split_ifs <;> omega
      omega
    rw [residuals_eq, hj]
    have cond : ∀ j, j < (R t).nsMaxFIncludingLcfs → (j < (forceCtx mpol ntor lasym ns (R t)).jMaxRZ edge ↔ j < E) := by
      intro j hj2
      have hj3 : j < ns := by rw [hl] at hj2; split_ifs at hj2 <;> omega
      have hd : (forceCtx mpol ntor lasym ns (R t)).jMaxRZ edge = if edge ∧ (R t).nsMaxF1 = ns then ns else min (R t).nsMaxF (ns - 1) := rfl
      rw [hd, hE]
      by_cases e1 : (R t).nsMaxF1 = ns
      · rw [if_pos e1] at hl
        cases edge <;> simp [e1]
        -- without the edge: the last thread counts up to the surface before the boundary
        have := ff.2.2.2.2.1
        omega
      · rw [if_neg e1] at hl
        cases edge <;> simp [e1] <;> omega
    have modes : ∀ j, (R t).nsMinF ≤ j → j < (R t).nsMaxFIncludingLcfs → ∀ P : (F → ℝ) → ℝ,
        modeSum mpol ntor (fun m n => P fun c => f t c ((forceCtx mpol ntor lasym ns (R t)).idx j m n)) = modeSum mpol ntor (fun m n => P fun c => G c j m n) := by
      intro j j0 j1 P
      unfold modeSum
      refine Finset.sum_congr rfl fun m hm => Finset.sum_congr rfl fun n hn => ?_
      obtain ⟨m0, m1⟩ := Finset.mem_Ico.1 hm
      obtain ⟨n0, n1⟩ := Finset.mem_Ico.1 hn
      exact congrArg P (funext fun c => hG t ht' j m n c j0 j1 m0 m1 n0 (by omega))
    refine Prod.ext ?_ (Prod.ext ?_ ?_)
    · simp only [Prod.fst_sum]
      refine Finset.sum_congr rfl fun j hjj => ?_
      obtain ⟨j0, j1⟩ := Finset.mem_Ico.1 hjj
      simp only [cond j j1]
      split_ifs
      · exact modes j j0 j1 (rPower h3 lasym)
      · rfl
    · simp only [Prod.snd_sum, Prod.fst_sum]
      refine Finset.sum_congr rfl fun j hjj => ?_
      obtain ⟨j0, j1⟩ := Finset.mem_Ico.1 hjj
      simp only [cond j j1]
      split_ifs
      · exact modes j j0 j1 (zPower h3 lasym)
      · rfl
    · simp only [Prod.snd_sum]
      refine Finset.sum_congr rfl fun j hjj => ?_
      obtain ⟨j0, j1⟩ := Finset.mem_Ico.1 hjj
      exact modes j j0 j1 (lPower h3 lasym)
  unfold teamResiduals
  rw [fold_triple, (ho.map _).sum_eq, irange_sum, Finset.sum_congr rfl key, rows_sum hns hnt hT, ← Prod.zero_eq_mk, ← Prod.zero_eq_mk, zero_add]
  have cut : ∀ g : Int → ℝ, ∑ j ∈ Finset.Ico 0 ns, (if j < E then g j else 0) = ∑ j ∈ Finset.Ico 0 E, g j := by
    intro g
    rw [← Finset.sum_filter]
    refine Finset.sum_congr ?_ fun _ _ => rfl
    ext j
    simp only [Finset.mem_filter, Finset.mem_Ico]
    have : E ≤ ns := by rw [hE]; split_ifs <;> omega
    omega
  refine Prod.ext ?_ (Prod.ext ?_ ?_)
  · rw [Prod.fst_sum]; exact cut _
  · rw [Prod.snd_sum, Prod.fst_sum]; exact cut _
  · rw [Prod.snd_sum, Prod.snd_sum]

end Verif.Coeffs
