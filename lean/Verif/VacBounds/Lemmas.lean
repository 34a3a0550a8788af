import Verif.VacBounds.Spec
import Verif.Partition.Lemmas
import Verif.Sizes.Props

/-!
# Lemmas on index arithmetic
-/
namespace Verif.VacBounds
open Verif Arr

variable {E : Env}

theorem Safe_append {l m : List Acc} : Safe E (l ++ m) ↔ Safe E l ∧ Safe E m := by
  simp only [Safe, List.mem_append, or_imp, forall_and]

theorem Safe_loop {lo hi : Int} {body : Int → List Acc} :
    Safe E (loop lo hi body) ↔ ∀ j, lo ≤ j → j < hi → Safe E (body j) := by
  simp only [Safe, loop, List.mem_flatMap, mem_irange]
  constructor
  · intro h j h1 h2 x hx; exact h x ⟨j, ⟨h1, h2⟩, hx⟩
  · rintro h x ⟨j, ⟨h1, h2⟩, hx⟩; exact h j h1 h2 x hx

theorem Safe_whenB {b : Bool} {l : List Acc} : Safe E (whenB b l) ↔ (b = true → Safe E l) := by
  cases b <;> simp [whenB, Safe]

theorem Safe_ite {b : Prop} [Decidable b] {l m : List Acc} :
    Safe E (if b then l else m) ↔ (b → Safe E l) ∧ (¬ b → Safe E m) := by
  by_cases h : b <;> simp [h]

/-- one array, one index -/
def In1 (E : Env) (i : Int) (a : Arr) : Prop :=
  match E.dims a with
  | [d] => In i d
  | _ => False

/-- one array, two indices -/
def In2 (E : Env) (i j : Int) (a : Arr) : Prop :=
  match E.dims a with
  | [d, e] => In i d ∧ In j e
  | _ => False

theorem Safe_on {l : List Arr} {i : Int} : Safe E (on l i) ↔ ∀ a ∈ l, In1 E i a := by
  simp only [Safe, on, List.mem_map, forall_exists_index, and_imp, forall_apply_eq_imp_iff₂, In1]
  constructor
  · intro h a ha
    have := h a ha
    generalize hd : E.dims a = ds at this ⊢
    cases this with
    | cons h1 h2 => cases h2; exact h1
  · intro h a ha
    have := h a ha
    generalize hd : E.dims a = ds at this ⊢
    match ds, this with
    | [d], hi => exact .cons hi .nil

theorem Safe_on2 {l : List Arr} {i j : Int} : Safe E (on2 l i j) ↔ ∀ a ∈ l, In2 E i j a := by
  simp only [Safe, on2, List.mem_map, forall_exists_index, and_imp, forall_apply_eq_imp_iff₂, In2]
  constructor
  · intro h a ha
    have := h a ha
    generalize hd : E.dims a = ds at this ⊢
    cases this with
    | cons h1 h2 => cases h2 with | cons h3 h4 => cases h4; exact ⟨h1, h3⟩
  · intro h a ha
    have := h a ha
    generalize hd : E.dims a = ds at this ⊢
    match ds, this with
    | [d, e], hi => exact .cons hi.1 (.cons hi.2 .nil)

theorem in1 {a : Arr} {i d : Int} (h : E.dims a = [d]) (hi : In i d) : In1 E i a := by
  unfold In1; rw [h]; exact hi

theorem in1A {a : Arr} {i d : Int} (h : E.dims a = [if E.s.lasym then d else 0])
    (hl : E.s.lasym = true) (hi : In i d) : In1 E i a := by
  unfold In1; rw [h, if_pos hl]; exact hi

theorem in2 {a : Arr} {i j d e : Int} (h : E.dims a = [d, e]) (hi : In i d) (hj : In j e) :
    In2 E i j a := by
  unfold In2; rw [h]; exact ⟨hi, hj⟩

theorem in2A {a : Arr} {i j d e : Int}
    (h : E.dims a = [if E.s.lasym then d else 0, if E.s.lasym then e else 0])
    (hl : E.s.lasym = true) (hi : In i d) (hj : In j e) : In2 E i j a := by
  unfold In2; rw [h, if_pos hl, if_pos hl]; exact ⟨hi, hj⟩

theorem row {j n k q : Int} (hj : In j n) (hk : In k q) : In (j * q + k) (n * q) := by
  obtain ⟨h1, h2⟩ := hj
  obtain ⟨h3, h4⟩ := hk
  have a : 0 ≤ j * q := Int.mul_nonneg h1 (by omega)
  have b : (j + 1) * q ≤ n * q := Int.mul_le_mul_of_nonneg_right (by omega) (by omega)
  rw [Int.add_mul, Int.one_mul] at b
  exact ⟨by omega, by omega⟩

theorem row' {j n k q : Int} (h1 : In j n) (h2 : In k q) : In (j * q + k) (q * n) := by
  rw [Int.mul_comm q n]; exact row h1 h2

/-- column-major -/
theorem col {j n k q : Int} (h1 : In j n) (h2 : In k q) : In (k + j * q) (n * q) := by
  rw [Int.add_comm]; exact row h1 h2

theorem tm {k q : Int} (h1 : 0 ≤ k) (h2 : 0 < q) : In (k.tmod q) q :=
  ⟨Int.tmod_nonneg _ h1, Int.tmod_lt_of_pos _ h2⟩

/-- The facts on ranges and sizes. -/
structure Facts (E : Env) : Prop where
  nf0 : 0 ≤ E.nf
  mf0 : 2 ≤ E.mf
  zeta : 1 ≤ E.s.nZeta
  even : 2 ≤ E.s.nThetaEven
  red : 2 * (E.s.nThetaReduced - 1) = E.s.nThetaEven
  effS : E.s.lasym = false → E.s.nThetaEff = E.s.nThetaReduced
  effA : E.s.lasym = true → E.s.nThetaEff = E.s.nThetaEven
  redEff : E.s.nThetaReduced ≤ E.s.nThetaEff
  effEven : E.s.nThetaEff ≤ E.s.nThetaEven
  mnyq2 : E.mf ≤ E.s.mnyq2
  nnyq2 : E.nf ≤ E.s.nnyq2
  nznt : E.s.nZnT = E.s.nZeta * E.s.nThetaEff
  min0 : 0 ≤ E.ztMin
  minMax : E.ztMin ≤ E.ztMax
  maxN : E.ztMax ≤ E.s.nZnT
  shared : E.mnpdDimShared = E.mnpdDim

theorem facts (h : Admissible E) : Facts E := by
  obtain ⟨nt, t, h1, h2, h3, r1, r2⟩ := h.ranges
  obtain ⟨lasym, nfp, mpol, ntor, ntheta, nzeta, mg, ng, hs⟩ := h.sizes
  have hC := Sizes.C07_sizes lasym nfp mpol ntor ntheta nzeta mg ng
  obtain ⟨g1, g2, g3⟩ := hC.1.2 ⟨E.s, hs⟩
  obtain ⟨⟨a1, -, a3, a4⟩, ⟨b1, b2, -, -⟩, ⟨c1, -, -⟩, ⟨d1, d2, d3, d4⟩, -, -,
    ⟨e1, e2, e3, e4, e5, -⟩, -⟩ := hC.2 E.s hs
  have hnf := h.nf
  have hmf := h.mf
  have hE : E.s.nThetaReduced ≤ E.s.nThetaEff ∧ E.s.nThetaEff ≤ E.s.nThetaEven := by
    rw [d2]; split <;> omega
  have k1 := Partition.split_nonneg (n := E.s.nZnT) (by omega) (show 0 < nt by omega) h2
  have k2 := Partition.split_le (n := E.s.nZnT) (by omega) (show 0 < nt by omega) h3
  have k3 := Partition.splitMin_le_max (n := E.s.nZnT) (by omega) (show 0 < nt by omega) t
  refine ⟨by omega, by omega, c1, by omega, d1, ?_, ?_, hE.1, hE.2, by omega, by omega, d3,
    by omega, by omega, by omega, ?_⟩
  · intro hl; rw [d2, ← a1, hl]; rfl
  · intro hl; rw [d2, ← a1, hl]; rfl
  · unfold Env.mnpdDimShared Env.mnpdDim Env.mnpd
    rw [hnf, hmf]

/-- opens the lists of accesses -/
macro "opn" : tactic => `(tactic|
  simp only [Safe_append, Safe_loop, Safe_whenB, Safe_on, Safe_on2, List.forall_mem_cons,
    List.not_mem_nil, false_imp_iff, implies_true, and_true, decide_eq_true_eq])

/-- the linear facts as hypotheses -/
macro "lin" F:term : tactic => `(tactic|
  (have nf0 := ($F).nf0; have mf0 := ($F).mf0; have zeta := ($F).zeta; have even := ($F).even
   have red := ($F).red; have redEff := ($F).redEff; have effEven := ($F).effEven
   have mnyq2 := ($F).mnyq2; have nnyq2 := ($F).nnyq2; have min0 := ($F).min0
   have minMax := ($F).minMax))

/-- a goal `In i d` that is linear -/
macro "lnr" : tactic => `(tactic| exact ⟨by omega, by omega⟩)

theorem matVec_safe (F : Facts E) {g mat v : Arr} (hg : E.dims g = [E.nf + 1])
    (hm : E.dims mat = [E.nf + 1, E.s.nZeta]) (hv : E.dims v = [E.s.nZeta]) :
    Safe E (matVec E g mat v) := by
  unfold matVec; opn
  lin F
  intro n n1 n2
  refine ⟨in1 hg (by lnr), fun k k1 k2 => ⟨in2 hm (by lnr) (by lnr), in1 hv (by lnr)⟩⟩

theorem matMat_safe (F : Facts E) {res mat src : Arr}
    (hr : ∀ n l, In n (E.nf + 1) → In l E.s.nThetaReduced → In2 E n l res)
    (hm : E.dims mat = [E.nf + 1, E.s.nZeta])
    (hs : ∀ i, In i (E.s.nThetaReduced * E.s.nZeta) → In1 E i src) :
    Safe E (matMat E res mat src) := by
  unfold matMat; opn
  intro n n1 n2 l l1 l2
  exact ⟨hr _ _ ⟨n1, n2⟩ ⟨l1, l2⟩, fun k k1 k2 => ⟨in2 hm ⟨n1, n2⟩ ⟨k1, k2⟩,
    hs _ (row ⟨l1, l2⟩ ⟨k1, k2⟩)⟩⟩

theorem matTVec_safe {res mat v : Arr} {base : Int} (hr : E.dims res = [E.mf + 1])
    (hm : E.dims mat = [E.s.nThetaReduced, E.mf + 1])
    (hv : ∀ l, In l E.s.nThetaReduced → In1 E (base + l) v) :
    Safe E (matTVec E res mat v base) := by
  unfold matTVec; opn
  intro m m1 m2
  exact ⟨in1 hr ⟨m1, m2⟩, fun l l1 l2 => ⟨in2 hm ⟨l1, l2⟩ ⟨m1, m2⟩, hv l ⟨l1, l2⟩⟩⟩

theorem tables_safe (F : Facts E) : Safe E (tables E) := by
  unfold tables; opn
  lin F
  refine ⟨fun n n1 n2 => ⟨in1 rfl (by lnr), fun k k1 k2 => ?_⟩, fun l l1 l2 m m1 m2 => ?_⟩
  · have := row (q := E.s.nZeta) (n := E.s.nnyq2 + 1) (j := n) (k := k) (by lnr) (by lnr)
    exact ⟨⟨in1 rfl this, in1 rfl this⟩, in2 rfl (by lnr) (by lnr), in2 rfl (by lnr) (by lnr)⟩
  · have := row (q := E.s.mnyq2 + 1) (n := E.s.nThetaReduced) (j := l) (k := m) (by lnr) (by lnr)
    exact ⟨⟨in1 rfl (by lnr), in1 rfl this, in1 rfl this⟩, in2 rfl (by lnr) (by lnr),
      in2 rfl (by lnr) (by lnr)⟩

/-- row and column of the Fourier index -/
theorem mnIdx (F : Facts E) {a m : Int} (ha : In a (2 * E.nf + 1)) (hm : In m (E.mf + 1)) :
    In (a * (E.mf + 1) + m) E.mnpd := row ha hm

theorem klIdx {l k : Int} (hl : In l E.s.nThetaEven) (hk : In k E.s.nZeta) :
    In (l * E.s.nZeta + k) (E.s.nThetaEven * E.s.nZeta) := row hl hk

theorem transform_safe (F : Facts E) : Safe E (transformGreensFunctionDerivative E) := by
  unfold transformGreensFunctionDerivative; opn
  lin F
  intro klp z1 z2 l l1 l2
  have hz : In (klp - E.ztMin) E.numLocal := ⟨by omega, by unfold Env.numLocal; omega⟩
  refine ⟨⟨⟨⟨fun k k1 k2 => ?_, matVec_safe F rfl rfl rfl⟩, matVec_safe F rfl rfl rfl⟩,
    fun hl => ⟨matVec_safe F rfl rfl rfl, matVec_safe F rfl rfl rfl⟩⟩, fun m m1 m2 => ?_⟩
  · have a1 := klIdx (E := E) (l := l) (k := k) (by lnr) (by lnr)
    have a2 := klIdx (E := E) (l := (E.s.nThetaEven - l).tmod E.s.nThetaEven)
      (k := (E.s.nZeta - k).tmod E.s.nZeta) (tm (by omega) (by omega)) (tm (by omega) (by omega))
    have b1 := row hz a1
    have b2 := row hz a2
    rw [← Int.mul_assoc, ← Int.mul_assoc] at b1 b2
    exact ⟨⟨⟨in1 rfl b1, in1 rfl b2⟩, in1 rfl (by lnr)⟩, fun hl => in1 rfl (by lnr)⟩
  · refine ⟨⟨in2 rfl (by lnr) (by lnr), in2 rfl (by lnr) (by lnr)⟩, fun n n1 n2 => ?_⟩
    have p := row (mnIdx F (a := E.nf + n) (m := m) (by lnr) (by lnr)) hz
    have q := row (mnIdx F (a := E.nf - n) (m := m) (by lnr) (by lnr)) hz
    exact ⟨⟨⟨⟨in1 rfl (by lnr), in1 rfl (by lnr)⟩, in1 rfl p⟩, fun _ => in1 rfl q⟩,
      fun hl => ⟨⟨⟨in1 rfl (by lnr), in1 rfl (by lnr)⟩, in1A rfl hl p⟩, fun _ => in1A rfl hl q⟩⟩

theorem symmetrise_safe (F : Facts E) : Safe E (symmetriseSourceTerm E) := by
  unfold symmetriseSourceTerm; opn
  lin F
  intro l l1 l2 k k1 k2
  have a1 := klIdx (E := E) (l := l) (k := k) (by lnr) (by lnr)
  have a2 := klIdx (E := E) (l := (E.s.nThetaEven - l).tmod E.s.nThetaEven)
    (k := (E.s.nZeta - k).tmod E.s.nZeta) (tm (by omega) (by omega)) (tm (by omega) (by omega))
  have a3 := row (j := l) (n := E.s.nThetaReduced) (k := k) (q := E.s.nZeta) (by lnr) (by lnr)
  exact ⟨⟨⟨in1 rfl a3, in1 rfl a1⟩, in1 rfl a2⟩, fun hl => in1A rfl hl a3⟩

theorem accumulate_safe : Safe E (accumulateFullGrpmn E) := by
  unfold accumulateFullGrpmn; opn
  exact ⟨fun i i1 i2 => ⟨in1 rfl ⟨i1, i2⟩, in1 rfl ⟨i1, i2⟩⟩,
    fun hl i i1 i2 => ⟨in1A rfl hl ⟨i1, i2⟩, in1A rfl hl ⟨i1, i2⟩⟩⟩

theorem toroidalSource_safe (F : Facts E) : Safe E (toroidalSource E) := by
  unfold toroidalSource; opn
  lin F
  refine ⟨⟨⟨matMat_safe F ?_ rfl ?_, matMat_safe F ?_ rfl ?_⟩,
    fun hl => ⟨matMat_safe F ?_ rfl ?_, matMat_safe F ?_ rfl ?_⟩⟩, fun n n1 n2 l l1 l2 => ?_⟩
  · exact fun _ _ h1 h2 => in2 rfl h1 h2
  · exact fun _ h => in1 rfl h
  · exact fun _ _ h1 h2 => in2 rfl h1 h2
  · exact fun _ h => in1 rfl h
  · exact fun _ _ h1 h2 => in2A rfl hl h1 h2
  · exact fun _ h => in1A rfl hl h
  · exact fun _ _ h1 h2 => in2A rfl hl h1 h2
  · exact fun _ h => in1A rfl hl h
  · have p := row' (j := E.nf + n) (n := 2 * E.nf + 1) (k := l) (q := E.s.nThetaReduced)
      (by lnr) (by lnr)
    have q := row' (j := E.nf - n) (n := 2 * E.nf + 1) (k := l) (q := E.s.nThetaReduced)
      (by lnr) (by lnr)
    exact ⟨⟨⟨⟨in1 rfl p, in1 rfl p⟩, in2 rfl (by lnr) (by lnr), in2 rfl (by lnr) (by lnr)⟩,
      fun _ => ⟨in1 rfl q, in1 rfl q⟩⟩,
      fun hl => ⟨⟨⟨in1A rfl hl p, in1A rfl hl p⟩, in2A rfl hl (by lnr) (by lnr),
        in2A rfl hl (by lnr) (by lnr)⟩, fun _ => ⟨in1A rfl hl q, in1A rfl hl q⟩⟩⟩

theorem sizeATemp_eq : E.sizeATemp = E.mnpd * (2 * E.nf + 1) * E.s.nThetaEff := by
  unfold Env.sizeATemp Env.mnpd; rw [Int.mul_comm (E.mf + 1)]

theorem aIdx {mn a l : Int} (h1 : In mn E.mnpd) (h2 : In a (2 * E.nf + 1))
    (h3 : In l E.s.nThetaEff) :
    In ((mn * (2 * E.nf + 1) + a) * E.s.nThetaEff + l) E.sizeATemp := by
  rw [sizeATemp_eq]; exact row (row h1 h2) h3

theorem toroidalMatrix_safe (F : Facts E) : Safe E (toroidalMatrix E) := by
  unfold toroidalMatrix; opn
  lin F
  refine ⟨fun l l1 l2 k k1 k2 hin => ?_, fun mn mn1 mn2 n n1 n2 l l1 l2 => ?_⟩
  · simp only [Bool.not_eq_true', Bool.or_eq_false_iff, decide_eq_false_iff_not] at hin
    have hz : In (l * E.s.nZeta + k - E.ztMin) E.numLocal :=
      ⟨by omega, by unfold Env.numLocal; omega⟩
    refine ⟨fun n n1 n2 => ⟨⟨in1 rfl (by lnr), in1 rfl (by lnr)⟩, in2 rfl (by lnr) (by lnr),
      in2 rfl (by lnr) (by lnr)⟩, fun mn mn1 mn2 => ?_⟩
    have g := row (j := mn) (n := E.mnpd) ⟨mn1, mn2⟩ hz
    refine ⟨⟨in1 rfl g, fun hl => in1A rfl hl g⟩, fun n n1 n2 => ?_⟩
    have p := aIdx (E := E) (mn := mn) (a := E.nf + n) (l := l) ⟨mn1, mn2⟩ (by lnr) (by lnr)
    exact ⟨⟨⟨in1 rfl (by lnr), in1 rfl (by lnr)⟩, in1 rfl p, in1 rfl p⟩,
      fun hl => ⟨in1A rfl hl p, in1A rfl hl p⟩⟩
  · have p := aIdx (E := E) (mn := mn) (a := E.nf + n) (l := l) ⟨mn1, mn2⟩ (by lnr) (by lnr)
    have q := aIdx (E := E) (mn := mn) (a := E.nf - n) (l := l) ⟨mn1, mn2⟩ (by lnr) (by lnr)
    exact ⟨⟨⟨in1 rfl p, in1 rfl p⟩, in1 rfl q, in1 rfl q⟩,
      fun hl => ⟨⟨in1A rfl hl p, in1A rfl hl p⟩, in1A rfl hl q, in1A rfl hl q⟩⟩

theorem poloidalSource_safe (F : Facts E) : Safe E (poloidalSource E) := by
  unfold poloidalSource; opn
  lin F
  intro a a1 a2
  have p := fun l (hl : In l E.s.nThetaReduced) =>
    row' (j := a) (n := 2 * E.nf + 1) (k := l) (q := E.s.nThetaReduced) ⟨a1, a2⟩ hl
  refine ⟨⟨⟨matTVec_safe rfl rfl fun l hl => in1 rfl (p l hl),
      matTVec_safe rfl rfl fun l hl => in1 rfl (p l hl)⟩, fun m m1 m2 => ?_⟩,
    fun h => ⟨⟨matTVec_safe rfl rfl fun l hl => in1A rfl h (p l hl),
      matTVec_safe rfl rfl fun l hl => in1A rfl h (p l hl)⟩, fun m m1 m2 => ?_⟩⟩
  · exact ⟨in1 rfl (mnIdx F ⟨a1, a2⟩ ⟨m1, m2⟩), in1 rfl ⟨m1, m2⟩⟩
  · exact ⟨in1A rfl h (mnIdx F ⟨a1, a2⟩ ⟨m1, m2⟩), in1 rfl ⟨m1, m2⟩⟩

theorem zero_add_in1 {a : Arr} (h : E.dims a = [E.s.nThetaReduced]) :
    ∀ l, In l E.s.nThetaReduced → In1 E (0 + l) a := by
  intro l hl; rw [Int.zero_add]; exact in1 h hl

theorem poloidalMatrix_safe (F : Facts E) : Safe E (poloidalMatrix E) := by
  unfold poloidalMatrix; opn
  lin F
  intro mn mn1 mn2 a a1 a2
  have hmn : In mn E.mnpd := ⟨mn1, mn2⟩
  have ha : In a (2 * E.nf + 1) := ⟨a1, a2⟩
  have z : ∀ {res mat v : Arr}, E.dims res = [E.mf + 1] →
      E.dims mat = [E.s.nThetaReduced, E.mf + 1] → E.dims v = [E.s.nThetaReduced] →
      Safe E (matTVec E res mat v 0) :=
    fun h1 h2 h3 => matTVec_safe h1 h2 (zero_add_in1 h3)
  have w := fun m (hm : In m (E.mf + 1)) => row (mnIdx F ha hm) hmn
  refine ⟨⟨⟨⟨fun l l1 l2 => ?_, z rfl rfl rfl⟩, z rfl rfl rfl⟩,
    fun m m1 m2 => ⟨in1 rfl (w m ⟨m1, m2⟩), in1 rfl ⟨m1, m2⟩⟩⟩,
    fun h => ⟨⟨⟨⟨⟨⟨⟨⟨z rfl rfl rfl, z rfl rfl rfl⟩,
      fun m m1 m2 => ⟨in1A rfl h (w m ⟨m1, m2⟩), in1 rfl ⟨m1, m2⟩⟩⟩, fun l l1 l2 => ?_⟩,
      z rfl rfl rfl⟩, z rfl rfl rfl⟩, z rfl rfl rfl⟩, z rfl rfl rfl⟩,
      fun m m1 m2 => ⟨⟨in1A rfl h (w m ⟨m1, m2⟩), in1A rfl h (w m ⟨m1, m2⟩)⟩,
        in1 rfl ⟨m1, m2⟩, in1 rfl ⟨m1, m2⟩⟩⟩⟩
  · have p := aIdx (E := E) (l := l) hmn ha (by lnr)
    exact ⟨⟨in1 rfl (by lnr), in1 rfl (by lnr)⟩, in1 rfl p, in1 rfl p⟩
  · have p := aIdx (E := E) (l := l) hmn ha (by lnr)
    have hr : In ((E.s.nThetaEven - l).tmod E.s.nThetaEven) E.s.nThetaEff := by
      rw [F.effA h]; exact tm (by omega) (by omega)
    have q := aIdx (E := E) hmn ha hr
    exact ⟨⟨⟨in1A rfl h p, in1A rfl h p⟩, in1A rfl h q, in1A rfl h q⟩, in1 rfl (by lnr),
      in1 rfl (by lnr), in1 rfl (by lnr), in1 rfl (by lnr)⟩

theorem mnpd_pos (F : Facts E) : 1 ≤ E.mnpd := by
  have := mnIdx F (a := 0) (m := 0) ⟨by omega, by have := F.nf0; omega⟩
    ⟨by omega, by have := F.mf0; omega⟩
  have := this.hi; omega

theorem dims_matrixShare (F : Facts E) : E.dims matrixShare = [E.mnpdDim * E.mnpdDim] := by
  show [E.mnpdDimShared * E.mnpdDimShared] = _; rw [F.shared]
theorem dims_iPiv (F : Facts E) : E.dims iPiv = [E.mnpdDim] := by
  show [E.mnpdDimShared] = _; rw [F.shared]
theorem dims_bvecShare (F : Facts E) : E.dims bvecShare = [E.mnpdDim] := by
  show [E.mnpdDimShared] = _; rw [F.shared]

theorem dimS (h : ¬ E.s.lasym = true) : E.mnpdDim = E.mnpd := by unfold Env.mnpdDim; rw [if_neg h]
theorem dimA (h : E.s.lasym = true) : E.mnpdDim = 2 * E.mnpd := by
  unfold Env.mnpdDim; rw [if_pos h]

theorem buildAdd_safe (F : Facts E) : Safe E (buildMatrixAdd E) := by
  unfold buildMatrixAdd
  simp only [Safe_append, Safe_ite, Safe_loop, Safe_on, List.forall_mem_cons,
    List.not_mem_nil, false_imp_iff, implies_true, and_true]
  have hM := dims_matrixShare F
  refine ⟨fun i i1 i2 => in1 hM ⟨i1, i2⟩, fun h i i1 i2 => ?_, fun h j j1 j2 i i1 i2 => ?_⟩
  · have h' : ¬ E.s.lasym = true := by simpa using h
    exact ⟨in1 hM (by rw [dimS h']; exact ⟨i1, i2⟩), in1 rfl ⟨i1, i2⟩⟩
  · have h' : E.s.lasym = true := by simpa using h
    have hD := dimA h'
    have s := row (j := j) (n := E.mnpd) (k := i) (q := E.mnpd) ⟨j1, j2⟩ ⟨i1, i2⟩
    refine ⟨⟨⟨⟨⟨in1 rfl s, in1A rfl h' s, in1A rfl h' s, in1A rfl h' s⟩, ?_⟩, ?_⟩, ?_⟩, ?_⟩ <;>
      exact in1 hM (col (by lnr) (by lnr))

theorem buildDiag_safe (F : Facts E) : Safe E (buildMatrixDiag E) := by
  unfold buildMatrixDiag
  simp only [Safe_append, Safe_ite, Safe_loop, Safe_on, List.forall_mem_cons,
    List.not_mem_nil, false_imp_iff, implies_true, and_true]
  lin F
  have hM := dims_matrixShare F
  refine ⟨fun mnp p1 p2 a a1 a2 => ⟨fun h => ?_, fun h => ?_⟩, fun h mn q1 q2 => ?_,
    fun h => ⟨fun mn q1 q2 => ?_, ?_⟩⟩
  · have h' : ¬ E.s.lasym = true := by simpa using h
    have r := row (j := mnp) (n := E.mnpd) ⟨p1, p2⟩
      (mnIdx F (a := a) (m := 0) (by lnr) (by lnr))
    refine in1 hM ?_
    rw [dimS h']
    have e : (mnp * (2 * E.nf + 1) + a) * (E.mf + 1) + 0 =
        mnp * E.mnpd + (a * (E.mf + 1) + 0) := by unfold Env.mnpd; ring
    rw [e]; exact r
  · have h' : E.s.lasym = true := by simpa using h
    have hD := dimA h'
    have r := mnIdx F (a := a) (m := 0) (by lnr) (by lnr)
    generalize a * (E.mf + 1) + 0 = rw' at r ⊢
    obtain ⟨r1, r2⟩ := r
    refine ⟨⟨⟨?_, ?_⟩, ?_⟩, ?_⟩ <;> exact in1 hM (col (by lnr) (by lnr))
  · have h' : ¬ E.s.lasym = true := by simpa using h
    exact in1 hM (by rw [dimS h']; exact row ⟨q1, q2⟩ ⟨q1, q2⟩)
  · have h' : E.s.lasym = true := by simpa using h
    have hD := dimA h'
    refine ⟨?_, ?_⟩ <;> exact in1 hM (col (by lnr) (by lnr))
  · have h' : E.s.lasym = true := by simpa using h
    have hD := dimA h'
    have r := mnIdx F (a := E.nf) (m := 0) (by lnr) (by lnr)
    rw [Int.add_zero] at r
    generalize E.nf * (E.mf + 1) = rw' at r ⊢
    obtain ⟨r1, r2⟩ := r
    exact in1 hM (col (by lnr) (by lnr))

theorem decompose_safe (F : Facts E) : Safe E (decomposeMatrix E) := by
  unfold decomposeMatrix; opn
  intro j j1 j2
  exact ⟨in1 (dims_iPiv F) ⟨j1, j2⟩, fun i i1 i2 =>
    in1 (dims_matrixShare F) (col ⟨j1, j2⟩ ⟨i1, i2⟩)⟩

theorem mnpd_le (F : Facts E) : E.mnpd ≤ E.mnpdDim := by
  have := mnpd_pos F
  unfold Env.mnpdDim; split <;> omega

theorem solve_safe (F : Facts E) : Safe E (solveForPotential E) := by
  unfold solveForPotential; opn
  lin F
  have hB := dims_bvecShare F
  have hle := mnpd_le F
  refine ⟨⟨⟨⟨⟨fun i i1 i2 => in1 hB ⟨i1, i2⟩, fun i i1 i2 => ?_⟩, fun h i i1 i2 => ?_⟩,
    fun a a1 a2 => ?_⟩, decompose_safe F⟩, fun i i1 i2 => in1 hB ⟨i1, i2⟩⟩
  · exact ⟨in1 hB (by lnr), in1 rfl ⟨i1, i2⟩, in1 rfl ⟨i1, i2⟩⟩
  · have hD := dimA h
    exact ⟨in1 hB (by lnr), in1A rfl h ⟨i1, i2⟩, in1A rfl h ⟨i1, i2⟩⟩
  · have r := mnIdx F (a := a) (m := 0) (by lnr) (by lnr)
    generalize a * (E.mf + 1) = x at r ⊢
    obtain ⟨r1, r2⟩ := r
    refine ⟨in1 hB (by lnr), fun h => ?_⟩
    have hD := dimA h
    exact in1 hB (by lnr)

theorem td {k n q : Int} (h1 : 0 ≤ k) (hq : 0 < q) (h2 : k < n * q) : In (k.tdiv q) n :=
  ⟨Int.tdiv_nonneg h1 (by omega), by
    rw [Int.tdiv_eq_ediv_of_nonneg h1]; exact Int.ediv_lt_of_lt_mul hq h2⟩

theorem inverse_safe (F : Facts E) : Safe E (inversePotential E) := by
  unfold inversePotential; opn
  lin F
  have hB := dims_bvecShare F
  have hle := mnpd_le F
  have hN := F.maxN
  rw [F.nznt, Int.mul_comm] at hN
  intro kl z1 z2 mn mn1 mn2
  have hz : In (kl - E.ztMin) E.numLocal := ⟨by omega, by unfold Env.numLocal; omega⟩
  have hl := td (k := kl) (n := E.s.nThetaEff) (q := E.s.nZeta) (by omega) (by omega) (by omega)
  have hk := tm (k := kl) (q := E.s.nZeta) (by omega) (by omega)
  have hn := td (k := mn) (n := 2 * E.nf + 1) (q := E.mf + 1) mn1 (by omega) mn2
  have hm := tm (k := mn) (q := E.mf + 1) mn1 (by omega)
  generalize kl.tdiv E.s.nZeta = l at *
  generalize kl.tmod E.s.nZeta = k at *
  generalize mn.tdiv (E.mf + 1) = nn at *
  generalize mn.tmod (E.mf + 1) = m at *
  obtain ⟨hl1, hl2⟩ := hl
  obtain ⟨hn1, hn2⟩ := hn
  obtain ⟨hm1, hm2⟩ := hm
  have hlr : In (if l < E.s.nThetaReduced then l else E.s.nThetaEven - l) E.s.nThetaReduced := by
    split
    · lnr
    · lnr
  have ha : In (absInt (nn - E.nf)) (E.s.nnyq2 + 1) := by
    unfold absInt; split
    · lnr
    · lnr
  have p := row (k := m) (q := E.s.mnyq2 + 1) hlr (by lnr)
  have q := row ha hk
  refine ⟨⟨⟨⟨⟨⟨⟨in1 rfl p, in1 rfl p⟩, in1 rfl (by lnr)⟩, in1 rfl q, in1 rfl q⟩, in1 rfl ha⟩,
    in1 rfl hz, in1 rfl hz⟩, in1 hB (by lnr)⟩, fun h => ?_⟩
  have hD := dimA h
  exact in1 hB (by lnr)

end Verif.VacBounds
