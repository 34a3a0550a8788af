import Verif.Nestor.Perform
import Mathlib.Algebra.BigOperators.Pi

/-! # `performUpdate` as plain sums over the points -/
namespace Verif.Nestor
open Verif Fourier Finset

/-- the family of arrays that is zero but for one element -/
def single {C : Type} [DecidableEq C] (o : C) (i : Int) (v : ℝ) : C → Int → ℝ := fun o' j => if o' = o ∧ j = i then v else 0

section
variable {C : Type} [DecidableEq C]

theorem addTo_eq (a : C → Int → ℝ) (o : C) (i : Int) (v : ℝ) : addTo a o i v = a + single o i v := by
  funext o' j
  rw [addTo_apply]
  rfl

theorem single_add (o : C) (i : Int) (v w : ℝ) : single o i (v + w) = single o i v + single o i w := by
  funext o' j
  show (if _ then _ else _) = (if _ then _ else _) + (if _ then _ else (0 : ℝ))
  split <;> simp

theorem single_zero (o : C) (i : Int) : single o i 0 = 0 := by
  funext o' j
  show (if _ then _ else _) = (0 : ℝ)
  split <;> rfl
end

/-- a loop in which every pass adds to a measure of the state -/
theorem forRange_measure {S M : Type} [AddCommMonoid M] {lo hi : Int} (f : Int → S → S) (V : S → M) (g : Int → M)
    (h : ∀ j b, lo ≤ j → j < hi → V (f j b) = V b + g j) (b : S) : V (forRange lo hi f b) = V b + ∑ j ∈ Ico lo hi, g j := by
  rcases le_total hi lo with hl | hl
  · rw [forRange_empty hl, Finset.Ico_eq_empty (by omega), sum_empty, add_zero]
  · refine forRange_inv hl f b (fun j st => V st = V b + ∑ i ∈ Ico lo j, g i) (by simp) fun j st h1 h2 ih => ?_
    rw [h j st h1 h2, ih, sum_Ico_int_succ h1, add_assoc]

theorem sum_shift (lo d : Int) {M : Type} [AddCommMonoid M] (g : Int → M) : ∑ i ∈ Ico 0 d, g (lo + i) = ∑ j ∈ Ico lo (lo + d), g j := by
  refine Finset.sum_bij' (fun i _ => lo + i) (fun j _ => j - lo) ?_ ?_ ?_ ?_ ?_ <;> simp only [mem_Ico] <;> intros <;> first | rfl | omega | constructor <;> omega

theorem sum_blocks (q : Int) (hq : 0 ≤ q) {M : Type} [AddCommMonoid M] (g : Int → M) :
    ∑ i ∈ Ico 0 q, ∑ j ∈ Ico (0 : Int) 4, g (4 * i + j) = ∑ i ∈ Ico 0 (4 * q), g i := by
  obtain ⟨q, rfl⟩ := Int.eq_ofNat_of_zero_le hq
  induction q with
  | zero => simp
  | succ q ih =>
    have e : ((q + 1 : ℕ) : Int) = (q : Int) + 1 := by push_cast; ring
    rw [e, sum_Ico_int_succ (by omega), ih (by omega), sum_shift]
    have : 4 * ((q : Int) + 1) = 4 * q + 4 := by ring
    rw [this]
    have hu : Ico (0 : Int) (4 * q + 4) = Ico 0 (4 * (q : Int)) ∪ Ico (4 * (q : Int)) (4 * q + 4) := by
      ext x; simp only [mem_Ico, mem_union]; omega
    rw [hu, sum_union]
    rw [Finset.disjoint_left]; intro x; simp only [mem_Ico]; omega

theorem sum_split (a b d : Int) (h1 : a ≤ b) (h2 : b ≤ d) {M : Type} [AddCommMonoid M] (g : Int → M) :
    ∑ i ∈ Ico a b, g i + ∑ i ∈ Ico b d, g i = ∑ i ∈ Ico a d, g i := by
  have hu : Ico a d = Ico a b ∪ Ico b d := by
    ext x; simp only [mem_Ico, mem_union]; omega
  rw [hu, sum_union]
  rw [Finset.disjoint_left]; intro x; simp only [mem_Ico]; omega

namespace Ctx
variable (c : Ctx)

/-- `sin(m u - n v)` with the factors of the tables, times the coefficient -/
noncomputable def sinp (fl n m kl : Int) : ℝ :=
  (c.sgnmu (kl.tdiv c.s.nZeta) * c.sinmu m (kl.tdiv c.s.nZeta) * c.cosnv n (kl.tmod c.s.nZeta)
    - c.cosmu m (kl.tdiv c.s.nZeta) * c.sinnv n (kl.tmod c.s.nZeta)) * c.factor fl n m
noncomputable def sinm (fl n m kl : Int) : ℝ :=
  (c.sgnmu (kl.tdiv c.s.nZeta) * c.sinmu m (kl.tdiv c.s.nZeta) * c.cosnv n (kl.tmod c.s.nZeta)
    + c.cosmu m (kl.tdiv c.s.nZeta) * c.sinnv n (kl.tmod c.s.nZeta)) * c.factor fl n m
noncomputable def cosp (fl n m kl : Int) : ℝ :=
  (c.cosmu m (kl.tdiv c.s.nZeta) * c.cosnv n (kl.tmod c.s.nZeta)
    + c.sgnmu (kl.tdiv c.s.nZeta) * c.sinmu m (kl.tdiv c.s.nZeta) * c.sinnv n (kl.tmod c.s.nZeta)) * c.factor fl n m
noncomputable def cosm (fl n m kl : Int) : ℝ :=
  (c.cosmu m (kl.tdiv c.s.nZeta) * c.cosnv n (kl.tmod c.s.nZeta)
    - c.sgnmu (kl.tdiv c.s.nZeta) * c.sinmu m (kl.tdiv c.s.nZeta) * c.sinnv n (kl.tmod c.s.nZeta)) * c.factor fl n m
/-- normal field times integration weight -/
noncomputable def bw (kl : Int) : ℝ := c.bDotN (kl - c.ztMin) * Sizes.wInt c.s (kl.tdiv c.s.nZeta)

/-- what one point adds for one array pair and one mode -/
noncomputable def put2 (b g : Out) (idx kl : Int) (T S v : ℝ) : Arr :=
  single b idx (T * c.bw kl * v) + if c.fullUpdate then single g (idx * c.numLocal + (kl - c.ztMin)) (S * v) else 0

/-- what one point adds to the sine arrays for a mode with `n, m > 0` -/
noncomputable def addSin (fl n m : Int) (Tp Tm Sp Sm : Int → ℝ) (kl : Int) : Arr :=
  c.put2 .bSin .gSin (c.posn n m) kl (Tp (kl - c.ztMin)) (Sp (kl - c.ztMin)) (c.sinp fl n m kl)
  + c.put2 .bSin .gSin (c.negn n m) kl (Tm (kl - c.ztMin)) (Sm (kl - c.ztMin)) (c.sinm fl n m kl)

noncomputable def addCos (fl n m : Int) (Tp Tm Sp Sm : Int → ℝ) (kl : Int) : Arr :=
  c.put2 .bCos .gCos (c.posn n m) kl (Tp (kl - c.ztMin)) (Sp (kl - c.ztMin)) (c.cosp fl n m kl)
  + c.put2 .bCos .gCos (c.negn n m) kl (Tm (kl - c.ztMin)) (Sm (kl - c.ztMin)) (c.cosm fl n m kl)

noncomputable def addBoth (fl n m : Int) (T S : Int → ℝ) (kl : Int) : Arr :=
  c.put2 .bSin .gSin (c.posn n m) kl (T (kl - c.ztMin)) (S (kl - c.ztMin)) (c.sinp fl n m kl)
  + if c.s.lasym then c.put2 .bCos .gCos (c.posn n m) kl (T (kl - c.ztMin)) (S (kl - c.ztMin)) (c.cosp fl n m kl) else 0

theorem analysum_eq (fl n m : Int) (T S : Int → ℝ) (kl : Int) (a : Arr) :
    c.analysum fl n m T S kl a = a + c.addBoth fl n m T S kl := by
  unfold analysum addBoth put2
  simp only [addTo_eq]
  have e : ∀ v : ℝ, T (kl - c.ztMin) * c.bDotN (kl - c.ztMin) * Sizes.wInt c.s (kl.tdiv c.s.nZeta) * v = T (kl - c.ztMin) * c.bw kl * v := by
    intro v; unfold bw; ring
  rw [e, e]
  unfold sinp cosp
  cases c.fullUpdate <;> cases c.s.lasym <;> simp [add_assoc]

theorem analysumCos_eq (fl n m : Int) (Tp Tm Sp Sm : Int → ℝ) (kl : Int) (a : Arr) :
    c.analysumCos fl n m Tp Tm Sp Sm kl a = a + c.addCos fl n m Tp Tm Sp Sm kl := by
  unfold analysumCos addCos put2
  simp only [addTo_eq]
  have e : ∀ t v : ℝ, t * c.bDotN (kl - c.ztMin) * Sizes.wInt c.s (kl.tdiv c.s.nZeta) * v = t * c.bw kl * v := by
    intro t v; unfold bw; ring
  have e1 : c.cosmu m (kl.tdiv c.s.nZeta) * c.cosnv n (kl.tmod c.s.nZeta) * c.factor fl n m
      + c.sgnmu (kl.tdiv c.s.nZeta) * c.sinmu m (kl.tdiv c.s.nZeta) * c.sinnv n (kl.tmod c.s.nZeta) * c.factor fl n m
      = c.cosp fl n m kl := by unfold cosp; ring
  have e2 : c.cosmu m (kl.tdiv c.s.nZeta) * c.cosnv n (kl.tmod c.s.nZeta) * c.factor fl n m
      - c.sgnmu (kl.tdiv c.s.nZeta) * c.sinmu m (kl.tdiv c.s.nZeta) * c.sinnv n (kl.tmod c.s.nZeta) * c.factor fl n m
      = c.cosm fl n m kl := by unfold cosm; ring
  rw [e1, e2, e, e]
  cases c.fullUpdate <;> simp <;> abel

/-- points of one row have the same `l` and consecutive `k` -/
theorem row_index (kl i : Int) (h0 : 0 ≤ kl) (hi0 : 0 ≤ i) (hi : i < c.remaining kl) :
    (kl + i).tdiv c.s.nZeta = kl.tdiv c.s.nZeta ∧ (kl + i).tmod c.s.nZeta = kl.tmod c.s.nZeta + i := by
  unfold remaining at hi
  have hk : i < c.s.nZeta - kl.tmod c.s.nZeta := lt_of_lt_of_le hi (min_le_left _ _)
  rw [Int.tmod_eq_emod_of_nonneg h0] at hk
  rw [Int.tdiv_eq_ediv_of_nonneg h0, Int.tdiv_eq_ediv_of_nonneg (by omega), Int.tmod_eq_emod_of_nonneg h0,
    Int.tmod_eq_emod_of_nonneg (by omega)]
  rcases lt_trichotomy c.s.nZeta 0 with hz | hz | hz
  · have := Int.emod_nonneg kl hz.ne
    omega
  · rw [hz] at hk ⊢
    simp only [Int.emod_zero, Int.ediv_zero, true_and]
  · have h1 := Int.emod_nonneg kl hz.ne'
    have h2 : kl = c.s.nZeta * (kl / c.s.nZeta) + kl % c.s.nZeta := (Int.mul_ediv_add_emod kl c.s.nZeta).symm
    have h3 : kl + i = (kl % c.s.nZeta + i) + c.s.nZeta * (kl / c.s.nZeta) := by omega
    constructor
    · conv_lhs => rw [h3]
      rw [Int.add_mul_ediv_left _ _ hz.ne', Int.ediv_eq_zero_of_lt (by omega) (by omega), zero_add]
    · conv_lhs => rw [h3]
      rw [Int.add_mul_emod_self_left, Int.emod_eq_of_lt (by omega) (by omega)]

theorem tail_eq (fl n m : Int) (Tp Tm Sp Sm : Int → ℝ) (kl i : Int) (h0 : 0 ≤ kl) (hi0 : 0 ≤ i) (hi : i < c.remaining kl) (a : Arr) :
    c.tail fl n m Tp Tm Sp Sm (kl.tdiv c.s.nZeta) (kl.tmod c.s.nZeta + i) (kl + i) a = a + c.addSin fl n m Tp Tm Sp Sm (kl + i) := by
  obtain ⟨e1, e2⟩ := c.row_index kl i h0 hi0 hi
  unfold tail addSin put2
  simp only [addTo_eq]
  have e : c.bDotN (kl + i - c.ztMin) * Sizes.wInt c.s (kl.tdiv c.s.nZeta) = c.bw (kl + i) := by unfold bw; rw [e1]
  have e3 : c.sgnmu (kl.tdiv c.s.nZeta) * c.sinmu m (kl.tdiv c.s.nZeta) * c.cosnv n (kl.tmod c.s.nZeta + i) * c.factor fl n m
      - c.cosmu m (kl.tdiv c.s.nZeta) * c.sinnv n (kl.tmod c.s.nZeta + i) * c.factor fl n m = c.sinp fl n m (kl + i) := by
    unfold sinp; rw [e1, e2]; ring
  have e4 : c.sgnmu (kl.tdiv c.s.nZeta) * c.sinmu m (kl.tdiv c.s.nZeta) * c.cosnv n (kl.tmod c.s.nZeta + i) * c.factor fl n m
      + c.cosmu m (kl.tdiv c.s.nZeta) * c.sinnv n (kl.tmod c.s.nZeta + i) * c.factor fl n m = c.sinm fl n m (kl + i) := by
    unfold sinm; rw [e1, e2]; ring
  rw [e, e3, e4]
  cases c.fullUpdate <;> simp <;> abel

/-- arrays with the partial sums added -/
noncomputable def bufSum (n m : Int) (b : Buf) : Arr :=
  b.a + single .bSin (c.posn n m) (b.posn 0 + b.posn 1 + b.posn 2 + b.posn 3)
    + single .bSin (c.negn n m) (b.negn 0 + b.negn 1 + b.negn 2 + b.negn 3)

theorem upd_sum4 (p : Int → ℝ) (j : Int) (h0 : 0 ≤ j) (h4 : j < 4) (v : ℝ) :
    upd p j (p j + v) 0 + upd p j (p j + v) 1 + upd p j (p j + v) 2 + upd p j (p j + v) 3 = (p 0 + p 1 + p 2 + p 3) + v := by
  have : j = 0 ∨ j = 1 ∨ j = 2 ∨ j = 3 := by omega
  rcases this with rfl | rfl | rfl | rfl <;> simp [upd] <;> ring

theorem lane_eq (fl n m : Int) (Tp Tm Sp Sm : Int → ℝ) (kl i j : Int) (h0 : 0 ≤ kl) (hi0 : 0 ≤ i) (j0 : 0 ≤ j) (j4 : j < 4)
    (hi : i + j < c.remaining kl) (b : Buf) :
    c.bufSum n m (c.lane n m Tp Tm Sp Sm (c.sgnmu (kl.tdiv c.s.nZeta) * c.sinmu m (kl.tdiv c.s.nZeta) * c.factor fl n m)
        (c.cosmu m (kl.tdiv c.s.nZeta) * c.factor fl n m) (kl.tdiv c.s.nZeta) (kl.tmod c.s.nZeta + i) (kl + i) j b)
      = c.bufSum n m b + c.addSin fl n m Tp Tm Sp Sm (kl + (i + j)) := by
  obtain ⟨e1, e2⟩ := c.row_index kl (i + j) h0 (by omega) hi
  unfold bufSum lane addSin put2
  simp only [addTo_eq]
  have er : kl + i - c.ztMin + j = kl + (i + j) - c.ztMin := by ring
  have ek : kl.tmod c.s.nZeta + i + j = kl.tmod c.s.nZeta + (i + j) := by ring
  rw [upd_sum4 _ j j0 j4, upd_sum4 _ j j0 j4, er, ek]
  have e : c.bDotN (kl + (i + j) - c.ztMin) * Sizes.wInt c.s (kl.tdiv c.s.nZeta) = c.bw (kl + (i + j)) := by unfold bw; rw [e1]
  have e3 : c.sgnmu (kl.tdiv c.s.nZeta) * c.sinmu m (kl.tdiv c.s.nZeta) * c.factor fl n m * c.cosnv n (kl.tmod c.s.nZeta + (i + j))
      - c.cosmu m (kl.tdiv c.s.nZeta) * c.factor fl n m * c.sinnv n (kl.tmod c.s.nZeta + (i + j)) = c.sinp fl n m (kl + (i + j)) := by
    unfold sinp; rw [e1, e2]; ring
  have e4 : c.sgnmu (kl.tdiv c.s.nZeta) * c.sinmu m (kl.tdiv c.s.nZeta) * c.factor fl n m * c.cosnv n (kl.tmod c.s.nZeta + (i + j))
      + c.cosmu m (kl.tdiv c.s.nZeta) * c.factor fl n m * c.sinnv n (kl.tmod c.s.nZeta + (i + j)) = c.sinm fl n m (kl + (i + j)) := by
    unfold sinm; rw [e1, e2]; ring
  rw [e, e3, e4]
  generalize b.posn 0 + b.posn 1 + b.posn 2 + b.posn 3 = P
  generalize b.negn 0 + b.negn 1 + b.negn 2 + b.negn 3 = N
  rw [single_add _ (c.posn n m) P, single_add _ (c.negn n m) N]
  cases c.fullUpdate <;> simp <;> abel

theorem row_eq (fl n m : Int) (Tp Tm Sp Sm : Int → ℝ) (kl : Int) (h0 : 0 ≤ kl) (hr : 0 < c.remaining kl) (a : Arr) :
    c.row fl n m Tp Tm Sp Sm kl a = a + ∑ i ∈ Ico kl (kl + c.remaining kl), c.addSin fl n m Tp Tm Sp Sm i := by
  unfold row
  set r := c.remaining kl with hrd
  have hq : r.tdiv 4 = r / 4 := Int.tdiv_eq_ediv_of_nonneg hr.le
  have hq0 : 0 ≤ r.tdiv 4 := by rw [hq]; omega
  have hq1 : 4 * r.tdiv 4 ≤ r := by rw [hq]; omega
  simp only []
  rw [forRange_measure (M := Arr) (lo := 4 * r.tdiv 4) (hi := r) _ (fun a => a) (fun i => c.addSin fl n m Tp Tm Sp Sm (kl + i))
    (fun j b h1 h2 => c.tail_eq fl n m Tp Tm Sp Sm kl j h0 (by omega) (by omega) b)]
  have hb := forRange_measure (M := Arr) (lo := 0) (hi := r.tdiv 4) (fun q b => forRange 0 4 (fun j b => c.lane n m Tp Tm Sp Sm
      (c.sgnmu (kl.tdiv c.s.nZeta) * c.sinmu m (kl.tdiv c.s.nZeta) * c.factor fl n m)
      (c.cosmu m (kl.tdiv c.s.nZeta) * c.factor fl n m) (kl.tdiv c.s.nZeta) (kl.tmod c.s.nZeta + 4 * q) (kl + 4 * q) j b) b)
    (c.bufSum n m) (fun q => ∑ j ∈ Ico (0 : Int) 4, c.addSin fl n m Tp Tm Sp Sm (kl + (4 * q + j)))
    (fun q b h1 h2 => forRange_measure (M := Arr) (lo := 0) (hi := 4) _ (c.bufSum n m) (fun j => c.addSin fl n m Tp Tm Sp Sm (kl + (4 * q + j)))
      (fun j b g1 g2 => c.lane_eq fl n m Tp Tm Sp Sm kl (4 * q) j h0 (by omega) g1 g2 (by omega) b) b)
    { posn := fun _ => 0, negn := fun _ => 0, a := a }
  rw [addTo_eq, addTo_eq]
  unfold bufSum at hb
  rw [hb]
  simp only [add_zero, single_zero]
  rw [sum_blocks _ hq0 (fun i => c.addSin fl n m Tp Tm Sp Sm (kl + i)), add_assoc, sum_split _ _ _ (by omega) hq1, sum_shift]

theorem rows_eq (hz : 0 < c.s.nZeta) (fl n m : Int) (Tp Tm Sp Sm : Int → ℝ) (kl : Int) (h0 : 0 ≤ kl) (a : Arr) :
    c.rows fl n m Tp Tm Sp Sm kl a = a + ∑ i ∈ Ico kl c.ztMax, c.addSin fl n m Tp Tm Sp Sm i := by
  induction hk : (c.ztMax - kl).toNat using Nat.strong_induction_on generalizing kl a with
  | _ k ih =>
    rw [rows]
    by_cases h : kl < c.ztMax
    · have hr : 0 < c.remaining kl := by
        unfold remaining
        rw [Int.tmod_eq_emod_of_nonneg h0]
        have := Int.emod_lt_of_pos kl hz
        exact lt_min (by omega) (by omega)
      have hle : kl + c.remaining kl ≤ c.ztMax := by
        have : c.remaining kl ≤ c.ztMax - kl := min_le_right _ _
        omega
      rw [dif_pos ⟨h, hr⟩, ih _ (by omega) (kl + c.remaining kl) (by omega) _ rfl, c.row_eq fl n m Tp Tm Sp Sm kl h0 hr, add_assoc,
        sum_split _ _ _ (by omega) hle]
    · rw [dif_neg (fun h' => h h'.1), Finset.Ico_eq_empty (by omega), sum_empty, add_zero]

/-- what one mode adds -/
noncomputable def addMode (fl n m : Int) (Tp Tm Sp Sm : Int → ℝ) : Arr :=
  ∑ kl ∈ Ico c.ztMin c.ztMax,
    if n = 0 ∨ m = 0 then c.addBoth fl n m (fun i => Tp i + Tm i) (fun i => Sp i + Sm i) kl
    else c.addSin fl n m Tp Tm Sp Sm kl + if c.s.lasym then c.addCos fl n m Tp Tm Sp Sm kl else 0

theorem mode_eq (hz : 0 < c.s.nZeta) (h0 : 0 ≤ c.ztMin) (fl n m : Int) (Tp Tm Sp Sm : Int → ℝ) (a : Arr) :
    c.mode fl n m Tp Tm Sp Sm a = a + c.addMode fl n m Tp Tm Sp Sm := by
  unfold mode addMode
  by_cases h : n = 0 ∨ m = 0
  · simp only [if_pos h]
    rw [forRange_measure (M := Arr) _ (fun a => a) _ (fun j b _ _ => c.analysum_eq fl n m _ _ j b)]
  · simp only [if_neg h]
    rw [c.rows_eq hz fl n m Tp Tm Sp Sm _ h0]
    cases c.s.lasym
    · simp
    · simp only [if_true]
      rw [forRange_measure (M := Arr) _ (fun a => a) _ (fun j b _ _ => c.analysumCos_eq fl n m _ _ _ _ j b), add_assoc,
        ← sum_add_distrib]

end Ctx
end Verif.Nestor
