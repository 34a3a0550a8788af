import Verif.Bounds.Spec
import Verif.Partition.Lemmas
import Verif.Sizes.Props

/-!
# Lemmas on index arithmetic
-/
namespace Verif.Bounds
open Verif Arr

variable {E : Env}

theorem Safe_append {l m : List Acc} : Safe E (l ++ m) ↔ Safe E l ∧ Safe E m := by
  simp only [Safe, List.mem_append, or_imp, forall_and]

theorem Safe_nil : Safe E [] ↔ True := by simp [Safe]

theorem Safe_loop {lo hi : Int} {body : Int → List Acc} :
    Safe E (loop lo hi body) ↔ ∀ j, lo ≤ j → j < hi → Safe E (body j) := by
  simp only [Safe, loop, List.mem_flatMap, mem_irange]
  constructor
  · intro h j h1 h2 x hx; exact h x ⟨j, ⟨h1, h2⟩, hx⟩
  · rintro h x ⟨j, ⟨h1, h2⟩, hx⟩; exact h j h1 h2 x hx

theorem Safe_whenB {b : Bool} {l : List Acc} : Safe E (whenB b l) ↔ (b = true → Safe E l) := by
  cases b <;> simp [whenB, Safe]

theorem Safe_ite {b : Prop} [Decidable b] {l m : List Acc} :
    Safe E (if b then l else m) ↔ (b → Safe E l) ∧ (¬ b → Safe E m) := by
  by_cases h : b <;> simp [h]

/-- one array, one index -/
def In1 (E : Env) (i : Int) (a : Arr) : Prop :=
  match E.dims a with
  | [d] => In i d
  | _ => False

theorem Safe_on {l : List Arr} {i : Int} : Safe E (on l i) ↔ ∀ a ∈ l, In1 E i a := by
  simp only [Safe, on, List.mem_map, forall_exists_index, and_imp, forall_apply_eq_imp_iff₂, In1]
  constructor
  · intro h a ha
    have := h a ha
    generalize hd : E.dims a = ds at this ⊢
    cases this with
    | cons h1 h2 => cases h2; exact h1
  · intro h a ha
    have := h a ha
    generalize hd : E.dims a = ds at this ⊢
    match ds, this with
    | [d], hi => exact .cons hi .nil

theorem forall_mem_par {m : Int} {e o : List Arr} {p : Arr → Prop} :
    (∀ a ∈ par m e o, p a) ↔
      (m.tmod 2 = 0 → ∀ a ∈ e, p a) ∧ (m.tmod 2 ≠ 0 → ∀ a ∈ o, p a) := by
  unfold par
  by_cases h : m.tmod 2 = 0 <;> simp [h]

theorem In_ite {b : Bool} {i d : Int} (h : b = true) (h1 : In i d) :
    In i (if b = true then d else 0) := by rw [if_pos h]; exact h1

theorem row {j n k q : Int} (h1 : 0 ≤ j) (h2 : j < n) (h3 : 0 ≤ k) (h4 : k < q) :
    In (j * q + k) (n * q) := by
  have a : 0 ≤ j * q := Int.mul_nonneg h1 (by omega)
  have b : (j + 1) * q ≤ n * q := Int.mul_le_mul_of_nonneg_right (by omega) (by omega)
  rw [Int.add_mul, Int.one_mul] at b
  exact ⟨by omega, by omega⟩

theorem row' {j n k q : Int} (h1 : 0 ≤ j) (h2 : j < n) (h3 : 0 ≤ k) (h4 : k < q) :
    In (j * q + k) (q * n) := by rw [Int.mul_comm q n]; exact row h1 h2 h3 h4

theorem tm {k q : Int} (h1 : 0 ≤ k) (h2 : 0 < q) : In (k.tmod q) q :=
  ⟨Int.tmod_nonneg _ h1, Int.tmod_lt_of_pos _ h2⟩

/-- The linear facts on ranges and sizes. -/
structure Facts (E : Env) : Prop where
  ns3 : 3 ≤ E.ns
  minF : 0 ≤ E.r.nsMinF
  minMax : E.r.nsMinF < E.r.nsMaxF
  maxF : E.r.nsMaxF ≤ E.ns
  maxF1 : E.r.nsMaxF1 = min E.ns (E.r.nsMaxF + 1)
  minF1 : E.r.nsMinF1 = max 0 (E.r.nsMinF - 1)
  minH : E.r.nsMinH = E.r.nsMinF1
  maxH : E.r.nsMaxH = E.r.nsMaxF1 - 1
  minFi : E.r.nsMinFi = max 1 E.r.nsMinF
  maxFi : E.r.nsMaxFi = min (E.ns - 1) E.r.nsMaxF
  incl1 : E.r.nsMaxF1 = E.ns → E.r.nsMaxFIncludingLcfs = E.ns
  incl2 : E.r.nsMaxF1 ≠ E.ns → E.r.nsMaxFIncludingLcfs = E.r.nsMaxF
  first : E.r.nsMinF = 0 → 2 ≤ E.r.nsMaxF
  notFirst : E.r.nsMinF = 0 ∨ 2 ≤ E.r.nsMinF
  last : E.r.nsMaxF1 = E.ns → E.r.nsMinF ≤ E.ns - 2
  fixed : E.lfreeb = false → E.r.nsMaxF ≤ E.ns - 1
  free : E.lfreeb = true → E.r.nsMaxF1 = E.ns → E.r.nsMaxF = E.ns
  mpol : 2 ≤ E.s.mpol
  ntor : 0 ≤ E.s.ntor
  zeta : 1 ≤ E.s.nZeta
  even : 2 ≤ E.s.nThetaEven
  red : 2 * (E.s.nThetaReduced - 1) = E.s.nThetaEven
  effS : E.s.lasym = false → E.s.nThetaEff = E.s.nThetaReduced
  effA : E.s.lasym = true → E.s.nThetaEff = E.s.nThetaEven
  redEff : E.s.nThetaReduced ≤ E.s.nThetaEff
  mnyq2 : E.s.mpol - 1 ≤ E.s.mnyq2
  nnyq2 : E.s.ntor ≤ E.s.nnyq2
  nznt : E.s.nZnT = E.s.nZeta * E.s.nThetaEff
  nzntEff : E.s.nThetaEff ≤ E.s.nZnT
  mnsize : E.s.mnsize = E.s.mpol * (E.s.ntor + 1)
  mnsize2 : E.s.mpol ≤ E.s.mnsize
  lthreed : E.s.lthreed = decide (E.s.ntor > 0)

theorem facts_sizes {lasym : Bool} {nfp mpol ntor ntheta nzeta mg ng : Int} {s : Sizes.Sizes}
    (h : Sizes.mk lasym nfp mpol ntor ntheta nzeta mg ng = .ok s) (hm : 2 ≤ s.mpol) :
    0 ≤ s.ntor ∧ 1 ≤ s.nZeta ∧ 2 ≤ s.nThetaEven ∧ 2 * (s.nThetaReduced - 1) = s.nThetaEven ∧
    (s.lasym = false → s.nThetaEff = s.nThetaReduced) ∧
    (s.lasym = true → s.nThetaEff = s.nThetaEven) ∧ s.nThetaReduced ≤ s.nThetaEff ∧
    s.mpol - 1 ≤ s.mnyq2 ∧ s.ntor ≤ s.nnyq2 ∧ s.nZnT = s.nZeta * s.nThetaEff ∧
    s.nThetaEff ≤ s.nZnT ∧ s.mnsize = s.mpol * (s.ntor + 1) ∧ s.mpol ≤ s.mnsize ∧
    s.lthreed = decide (s.ntor > 0) := by
  have hC := Sizes.C07_sizes lasym nfp mpol ntor ntheta nzeta mg ng
  obtain ⟨h1, h2, h3⟩ := hC.1.2 ⟨s, h⟩
  obtain ⟨⟨a1, -, a3, a4⟩, ⟨b1, b2, -, -⟩, ⟨c1, -, -⟩, ⟨d1, d2, d3, -⟩, -, -,
    ⟨e1, e2, e3, e4, -, -⟩, -⟩ := hC.2 s h
  have hsz : s.mnsize = s.mpol * (s.ntor + 1) ∧ s.lthreed = decide (s.ntor > 0) := by
    unfold Sizes.mk at h
    rw [if_neg (by omega), if_neg (by omega), if_neg (by omega)] at h
    simp only [Outcome.ok.injEq] at h
    subst h
    exact ⟨rfl, rfl⟩
  have hE : s.nThetaReduced ≤ s.nThetaEff := by
    rw [d2]; split <;> omega
  have h5 : s.nThetaEff ≤ s.nZnT := by
    rw [d3]; nlinarith
  have h6 : s.mpol ≤ s.mnsize := by
    rw [hsz.1]; nlinarith
  refine ⟨by omega, c1, by omega, d1, ?_, ?_, hE, by omega, by omega, d3, h5, hsz.1, h6, hsz.2⟩
  · intro hl; rw [d2, ← a1, hl]; rfl
  · intro hl; rw [d2, ← a1, hl]; rfl

theorem facts (h : Admissible E) : Facts E := by
  obtain ⟨nt, t, h1, h2, h3, hr⟩ := h.ranges
  obtain ⟨lasym, nfp, mpol, ntor, ntheta, nzeta, mg, ng, hs⟩ := h.sizes
  have h3' := h.surfaces
  obtain ⟨s1, s2, s3, s4, s5, s6, s7, s8, s9, s10, s11, s12, s13, s14⟩ := facts_sizes hs h.modes
  obtain ⟨r0, r1, r2, r3, r4, r5, r6, r7, r8, r9⟩ :=
    (Partition.adjust_ok_iff (by omega) h1 ⟨h2, h3⟩).1 hr
  have hnt2 : 2 * nt ≤ E.ns := by
    rw [Int.tdiv_eq_ediv_of_nonneg (by omega)] at r0
    omega
  have hn : Partition.numSurfacesToDistribute E.ns E.lfreeb = E.ns ∧ E.lfreeb = true ∨
      Partition.numSurfacesToDistribute E.ns E.lfreeb = E.ns - 1 ∧ E.lfreeb = false := by
    unfold Partition.numSurfacesToDistribute
    cases E.lfreeb <;> simp
  generalize Partition.numSurfacesToDistribute E.ns E.lfreeb = n at *
  have hn0 : 0 ≤ n := by omega
  have hnt : 0 < nt := by omega
  have k1 := Partition.split_nonneg hn0 hnt h2
  have k2 := Partition.split_le hn0 hnt h3
  have k3 := Partition.split_ge (k := 1) hn0 hnt (by omega) t
  have first2 : 2 ≤ Partition.splitMax n nt 0 := by
    have e0 := Partition.split_size hn0 hnt 0
    rw [Partition.splitMin_zero hn0 hnt] at e0
    obtain ⟨w, r, hw, hrr, q1, q2, q3, q4⟩ := Partition.split_eq hn0 hnt
    rw [hw, hrr] at e0
    by_cases hw2 : 2 ≤ w
    · split at e0 <;> omega
    · have hw1 : w = 0 ∨ w = 1 := by omega
      rcases hw1 with rfl | rfl
      · omega
      · rw [if_pos (by omega)] at e0; omega
  have kk : t = 0 ∧ E.r.nsMinF = 0 ∧ 2 ≤ E.r.nsMaxF ∨ 2 ≤ E.r.nsMinF := by
    by_cases ht : t = 0
    · subst ht
      left
      refine ⟨rfl, ?_, ?_⟩
      · rw [r1]; exact Partition.splitMin_zero hn0 hnt
      · rw [r2]; exact first2
    · right
      rw [r1]
      have := Partition.splitMin_mono hn0 hnt (show 0 + 1 ≤ t by omega)
      rw [← Partition.splitMax_eq_succ hn0 hnt] at this
      omega
  have kfree : E.lfreeb = true → E.r.nsMinF + 2 ≤ E.r.nsMaxF := by
    intro hl
    have h2n : 2 * nt ≤ n := by
      rcases hn with ⟨a, b⟩ | ⟨a, b⟩
      · omega
      · rw [b] at hl; cases hl
    have := Partition.split_ge (k := 2) hn0 hnt h2n t
    omega
  have kend : E.lfreeb = true → E.r.nsMaxF1 = E.ns → E.r.nsMaxF = E.ns := by
    intro hl hm
    rcases hn with ⟨a, b⟩ | ⟨a, b⟩
    · by_cases ht : t + 1 = nt
      · rw [r2, Partition.splitMax_eq_succ hn0 hnt, ht, Partition.splitMin_last hn0 hnt, a]
      · have z1 := Partition.split_ge (k := 2) hn0 hnt (by omega) (t + 1)
        have z2 := Partition.split_le hn0 hnt (show t + 1 < nt by omega)
        rw [← Partition.splitMax_eq_succ hn0 hnt] at z1
        omega
    · rw [b] at hl; cases hl
  have kfix : E.lfreeb = false → E.r.nsMaxF ≤ E.ns - 1 := by
    intro hl
    rcases hn with ⟨a, b⟩ | ⟨a, b⟩
    · rw [b] at hl; cases hl
    · omega
  refine ⟨h3', by omega, by omega, by omega, r4, r3, r5, r6, r7, r8,
    fun h => by rw [r9, if_pos h], fun h => by rw [r9, if_neg h], by omega, by omega, ?_, kfix, kend,
    h.modes, s1, s2, s3, s4, s5, s6, s7, s8, s9, s10, s11, s12, s13, s14⟩
  intro hm
  rcases hb : E.lfreeb with _ | _
  · have := kfix hb; omega
  · have := kfree hb; omega

end Verif.Bounds
