import Verif.Mgrid.Lemmas
import Mathlib.Algebra.Order.Ring.Rat
import Mathlib.Algebra.Field.Rat
import Mathlib.Tactic.NormNum
import Mathlib.Tactic.LinearCombination

/-!
# C35, C36: the external field on its grid
-/
namespace Verif.Mgrid
open Verif Finset

variable {K : Type} [Field K] [LinearOrder K] [IsStrictOrderedRing K] [FloorRing K]

/-! ## C35 -/

/-- a usable field table: at least two points per direction, arrays of the announced size -/
structure Usable (g : MGrid K) : Prop where
  loaded : g.loaded = true
  fixed : g.fixed = false
  r2 : 2 ≤ g.numR
  z2 : 2 ≤ g.numZ
  r : g.minR < g.maxR
  z : g.minZ < g.maxZ
  dr : g.deltaR = delta g.minR g.maxR g.numR
  dz : g.deltaZ = delta g.minZ g.maxZ g.numZ
  size : ∀ c, (g.b c).size = g.numPhi * g.numZ * g.numR

/-- specification: position of grid line `i` out of `num` between `lo` and `hi` -/
def line (lo hi : K) (num i : Int) : K := lo + (i : K) * ((hi - lo) / ((num : K) - 1))

/-- specification: tabulated value at plane `k`, height index `j`, radius index `i` -/
def node (g : MGrid K) (c : Comp) (k j i : Int) : K := (g.b c).val ((k * g.numZ + j) * g.numR + i)

/-- specification: nearest value inside an interval -/
def clamp (lo hi x : K) : K := if x < lo then lo else if hi < x then hi else x

/-- `(r, z)` lies in cell `(i, j)` at relative position `(p, q)` -/
structure InCell (g : MGrid K) (r z : K) (i j : Int) (p q : K) : Prop where
  i0 : 0 ≤ i
  i1 : i + 1 < g.numR
  j0 : 0 ≤ j
  j1 : j + 1 < g.numZ
  p0 : 0 ≤ p
  p1 : p ≤ 1
  q0 : 0 ≤ q
  q1 : q ≤ 1
  hr : r = (1 - p) * line g.minR g.maxR g.numR i + p * line g.minR g.maxR g.numR (i + 1)
  hz : z = (1 - q) * line g.minZ g.maxZ g.numZ j + q * line g.minZ g.maxZ g.numZ (j + 1)

/-- specification: bilinear interpolation in a cell -/
def bilinear (g : MGrid K) (c : Comp) (k i j : Int) (p q : K) : K :=
  (1 - p) * (1 - q) * node g c k j i + (1 - p) * q * node g c k (j + 1) i
    + p * (1 - q) * node g c k j (i + 1) + p * q * node g c k (j + 1) (i + 1)

omit [IsStrictOrderedRing K] [FloorRing K] in
theorem clamp_eq (lo hi x : K) (h : lo < hi) : clamp lo hi x = max lo (min x hi) := by
  unfold clamp
  split
  · rename_i hx; rw [min_eq_left (hx.trans h).le, max_eq_left hx.le]
  · split
    · rename_i h1 h2; rw [min_eq_right h2.le, max_eq_right h.le]
    · rename_i h1 h2
      rw [min_eq_left (not_lt.mp h2), max_eq_right (not_lt.mp h1)]

/-- moving from "lower line" to an honest cell: at the upper edge the last cell is used -/
theorem cell_of_lower (num i : Int) (p : K) (hn : 2 ≤ num) (h0 : 0 ≤ i) (h1 : i ≤ num - 1) (p0 : 0 ≤ p)
    (p1 : p < 1) (he : i = num - 1 → p = 0) :
    ∃ i' p', 0 ≤ i' ∧ i' + 1 < num ∧ 0 ≤ p' ∧ p' ≤ (1 : K) ∧ (i : K) + p = i' + p' ∧
      ((i' = i ∧ p' = p) ∨ (i' = i - 1 ∧ i = num - 1 ∧ p = 0 ∧ p' = 1)) := by
  by_cases e : i = num - 1
  · refine ⟨i - 1, 1, by omega, by omega, by simp, le_refl _, ?_, Or.inr ⟨rfl, e, he e, rfl⟩⟩
    rw [he e]; push_cast; ring
  · exact ⟨i, p, h0, by omega, p0, p1.le, rfl, Or.inl ⟨rfl, rfl⟩⟩

/-- The interpolated value is the bilinear interpolation, in a cell of the table that contains the point moved
    to the nearest point of the grid; all four table entries used exist. -/
theorem C35_bilinear (g : MGrid K) (h : Usable g) (nZeta kl : Int) (hz : 0 < nZeta) (hkl : 0 ≤ kl)
    (hk : kl % nZeta < g.numPhi) (rL zL : K) :
    ∃ v i j p q, interpPoint g nZeta kl rL zL = .ok v ∧
      InCell g (clamp g.minR g.maxR rL) (clamp g.minZ g.maxZ zL) i j p q ∧
      ∀ c, v c = bilinear g c (kl % nZeta) i j p q := by
  have hk0 : 0 ≤ kl % nZeta := Int.emod_nonneg _ hz.ne'
  have cr := clamp_eq g.minR g.maxR rL h.r
  have cz := clamp_eq g.minZ g.maxZ zL h.z
  have br : g.minR ≤ max g.minR (min rL g.maxR) ∧ max g.minR (min rL g.maxR) ≤ g.maxR :=
    ⟨le_max_left _ _, max_le h.r.le (min_le_right _ _)⟩
  have bz : g.minZ ≤ max g.minZ (min zL g.maxZ) ∧ max g.minZ (min zL g.maxZ) ≤ g.maxZ :=
    ⟨le_max_left _ _, max_le h.z.le (min_le_right _ _)⟩
  obtain ⟨ir, pr, er, i0, i1, p0, p1, xr, pe⟩ := locate_ok g.minR g.maxR g.numR h.r2 h.r _ br.1 br.2
  obtain ⟨jz, qz, ez, j0, j1, q0, q1, xz, qe⟩ := locate_ok g.minZ g.maxZ g.numZ h.z2 h.z _ bz.1 bz.2
  obtain ⟨i', p', a0, a1, a2, a3, a4, ai⟩ := cell_of_lower g.numR ir pr h.r2 i0 i1 p0 p1 pe
  obtain ⟨j', q', b0, b1, b2, b3, b4, bj⟩ := cell_of_lower g.numZ jz qz h.z2 j0 j1 q0 q1 qe
  have hcomb : ∀ c, combine (g.b c) (1 + pr * qz - (pr + qz)) (qz - pr * qz) (pr - pr * qz) (pr * qz)
      ((kl % nZeta * g.numZ + jz) * g.numR + ir)
      ((kl % nZeta * g.numZ + min (g.numZ - 1) (jz + 1)) * g.numR + ir)
      ((kl % nZeta * g.numZ + jz) * g.numR + min (g.numR - 1) (ir + 1))
      ((kl % nZeta * g.numZ + min (g.numZ - 1) (jz + 1)) * g.numR + min (g.numR - 1) (ir + 1))
      = .ok (bilinear g c (kl % nZeta) i' j' p' q') := by
    intro c
    have gi : ∀ j i : Int, 0 ≤ j → j ≤ g.numZ - 1 → 0 ≤ i → i ≤ g.numR - 1 →
        (g.b c).get ((kl % nZeta * g.numZ + j) * g.numR + i) = .ok (node g c (kl % nZeta) j i) := by
      intro j i c0 c1 c2 c3
      obtain ⟨l0, l1⟩ := lin_bounds ⟨hk0, hk⟩ ⟨c0, (by omega : j < g.numZ)⟩ ⟨c2, (by omega : i < g.numR)⟩
      rw [Vec.get_ok _ _ l0 (by rw [h.size]; exact l1)]; rfl
    unfold combine
    rw [gi jz ir j0 j1 i0 i1, gi (min (g.numZ - 1) (jz + 1)) ir (by omega) (by omega) i0 i1,
      gi jz (min (g.numR - 1) (ir + 1)) j0 j1 (by omega) (by omega),
      gi (min (g.numZ - 1) (jz + 1)) (min (g.numR - 1) (ir + 1)) (by omega) (by omega) (by omega) (by omega)]
    simp only [Outcome.bind_ok, Outcome.pure_eq, Outcome.ok.injEq]
    unfold bilinear
    rcases ai with ⟨rfl, rfl⟩ | ⟨rfl, hr1, rfl, rfl⟩ <;> rcases bj with ⟨rfl, rfl⟩ | ⟨rfl, hr2, rfl, rfl⟩
    · rw [min_eq_right (by omega : i' + 1 ≤ g.numR - 1), min_eq_right (by omega : j' + 1 ≤ g.numZ - 1)]
      ring
    · rw [min_eq_right (by omega : i' + 1 ≤ g.numR - 1), sub_add_cancel]; ring
    · rw [min_eq_right (by omega : j' + 1 ≤ g.numZ - 1), sub_add_cancel]; ring
    · rw [sub_add_cancel, sub_add_cancel]; ring
  refine ⟨fun c => bilinear g c (kl % nZeta) i' j' p' q', i', j', p', q', ?_,
    ⟨a0, a1, b0, b1, a2, a3, b2, b3, ?_, ?_⟩, fun c => rfl⟩
  · unfold interpPoint
    rw [if_neg hz.ne', h.dr, h.dz]
    dsimp only
    rw [er, Outcome.bind_ok]
    dsimp only
    rw [ez]
    simp only [Outcome.bind_ok]
    rw [Int.tmod_eq_emod_of_nonneg hkl, hcomb .r, hcomb .p, hcomb .z]
    simp only [Outcome.bind_ok, Outcome.pure_eq, Outcome.ok.injEq]
    funext c; cases c <;> rfl
  · rw [cr, xr, a4]; unfold line; push_cast; ring
  · rw [cz, xz, b4]; unfold line; push_cast; ring

/-- two descriptions of the same coordinate agree, or meet at a grid line -/
theorem cell_unique (lo hi : K) (num : Int) (hn : 2 ≤ num) (hlt : lo < hi) (i i' : Int) (p p' : K) (p0 : 0 ≤ p)
    (p1 : p ≤ 1) (p0' : 0 ≤ p') (p1' : p' ≤ 1)
    (h : (1 - p) * line lo hi num i + p * line lo hi num (i + 1)
      = (1 - p') * line lo hi num i' + p' * line lo hi num (i' + 1)) (f : Int → K) :
    (1 - p) * f i + p * f (i + 1) = (1 - p') * f i' + p' * f (i' + 1) := by
  have hn' : (0 : K) < (num : K) - 1 := by
    have : ((2 : Int) : K) ≤ (num : K) := Int.cast_le.mpr hn
    norm_num at this; linarith
  have hd : 0 < (hi - lo) / ((num : K) - 1) := div_pos (by linarith) hn'
  have e : (i : K) + p = i' + p' := by
    unfold line at h
    push_cast at h
    have : ((i : K) + p - (i' + p')) * ((hi - lo) / ((num : K) - 1)) = 0 := by linear_combination h
    rcases mul_eq_zero.mp this with h | h
    · linarith
    · exact absurd h hd.ne'
  rcases lt_trichotomy i i' with hlt | rfl | hlt
  · have : i + 1 ≤ i' := hlt
    have c : ((i + 1 : Int) : K) ≤ (i' : K) := Int.cast_le.mpr this
    push_cast at c
    have ep : p = 1 := by linarith
    have ep' : p' = 0 := by linarith
    have : (i' : K) = ((i + 1 : Int) : K) := by push_cast; linarith
    have : i' = i + 1 := Int.cast_injective this
    subst this ep ep'; ring
  · have : p = p' := by linarith
    rw [this]
  · have : i' + 1 ≤ i := hlt
    have c : ((i' + 1 : Int) : K) ≤ (i : K) := Int.cast_le.mpr this
    push_cast at c
    have ep : p' = 1 := by linarith
    have ep' : p = 0 := by linarith
    have : (i : K) = ((i' + 1 : Int) : K) := by push_cast; linarith
    have : i = i' + 1 := Int.cast_injective this
    subst this ep ep'; ring

theorem bilinear_unique (g : MGrid K) (h : Usable g) (c : Comp) (k : Int) (r z : K) (i j i' j' : Int)
    (p q p' q' : K) (a : InCell g r z i j p q) (b : InCell g r z i' j' p' q') :
    bilinear g c k i j p q = bilinear g c k i' j' p' q' := by
  have e1 := cell_unique g.minR g.maxR g.numR h.r2 h.r i i' p p' a.p0 a.p1 b.p0 b.p1 (by rw [← a.hr, ← b.hr])
    (fun i => (1 - q) * node g c k j i + q * node g c k (j + 1) i)
  have e2 := cell_unique g.minZ g.maxZ g.numZ h.z2 h.z j j' q q' a.q0 a.q1 b.q0 b.q1 (by rw [← a.hz, ← b.hz])
    (fun j => (1 - p') * node g c k j i' + p' * node g c k j (i' + 1))
  unfold bilinear
  beta_reduce at e1 e2
  linear_combination e1 + e2

/-- Neighbouring cells agree where they meet: the value is the bilinear interpolation in *every* cell
    containing the point. -/
theorem C35_every_cell (g : MGrid K) (h : Usable g) (nZeta kl : Int) (hz : 0 < nZeta) (hkl : 0 ≤ kl)
    (hk : kl % nZeta < g.numPhi) (rL zL : K) (i j : Int) (p q : K)
    (hc : InCell g (clamp g.minR g.maxR rL) (clamp g.minZ g.maxZ zL) i j p q) (v : Comp → K)
    (hv : interpPoint g nZeta kl rL zL = .ok v) (c : Comp) : v c = bilinear g c (kl % nZeta) i j p q := by
  obtain ⟨v', i', j', p', q', e, hc', hb⟩ := C35_bilinear g h nZeta kl hz hkl hk rL zL
  have : v = v' := by rw [hv] at e; exact Outcome.ok.inj e
  rw [this, hb c]
  exact bilinear_unique g h c _ _ _ _ _ _ _ _ _ _ _ hc' hc

/-- The value lies between any bounds on the table entries of the plane (weights are non-negative and sum
    to one). -/
theorem C35_range (g : MGrid K) (h : Usable g) (nZeta kl : Int) (hz : 0 < nZeta) (hkl : 0 ≤ kl)
    (hk : kl % nZeta < g.numPhi) (rL zL lo hi : K) (c : Comp)
    (hb : ∀ i j, 0 ≤ i → i < g.numR → 0 ≤ j → j < g.numZ →
      lo ≤ node g c (kl % nZeta) j i ∧ node g c (kl % nZeta) j i ≤ hi) :
    ∃ v, interpPoint g nZeta kl rL zL = .ok v ∧ lo ≤ v c ∧ v c ≤ hi := by
  obtain ⟨v, i, j, p, q, e, hc, hv⟩ := C35_bilinear g h nZeta kl hz hkl hk rL zL
  refine ⟨v, e, ?_⟩
  rw [hv]
  have h00 := hb i j hc.i0 (by have := hc.i1; omega) hc.j0 (by have := hc.j1; omega)
  have h01 := hb i (j + 1) hc.i0 (by have := hc.i1; omega) (by have := hc.j0; omega) hc.j1
  have h10 := hb (i + 1) j (by have := hc.i0; omega) hc.i1 hc.j0 (by have := hc.j1; omega)
  have h11 := hb (i + 1) (j + 1) (by have := hc.i0; omega) hc.i1 (by have := hc.j0; omega) hc.j1
  have p0 := hc.p0
  have p1 : 0 ≤ 1 - p := by linarith [hc.p1]
  have q0 := hc.q0
  have q1 : 0 ≤ 1 - q := by linarith [hc.q1]
  have w1 := mul_nonneg p1 q1
  have w2 := mul_nonneg p1 q0
  have w3 := mul_nonneg p0 q1
  have w4 := mul_nonneg p0 q0
  unfold bilinear
  constructor
  · have e : lo = (1 - p) * (1 - q) * lo + (1 - p) * q * lo + p * (1 - q) * lo + p * q * lo := by ring
    have k1 := mul_le_mul_of_nonneg_left h00.1 w1
    have k2 := mul_le_mul_of_nonneg_left h01.1 w2
    have k3 := mul_le_mul_of_nonneg_left h10.1 w3
    have k4 := mul_le_mul_of_nonneg_left h11.1 w4
    linarith
  · have e : hi = (1 - p) * (1 - q) * hi + (1 - p) * q * hi + p * (1 - q) * hi + p * q * hi := by ring
    have k1 := mul_le_mul_of_nonneg_left h00.2 w1
    have k2 := mul_le_mul_of_nonneg_left h01.2 w2
    have k3 := mul_le_mul_of_nonneg_left h10.2 w3
    have k4 := mul_le_mul_of_nonneg_left h11.2 w4
    linarith

/-- Fields that are affine (even bilinear) in position are reproduced exactly inside the grid and continued
    constantly outside. -/
theorem C35_affine_exact (g : MGrid K) (h : Usable g) (nZeta kl : Int) (hz : 0 < nZeta) (hkl : 0 ≤ kl)
    (hk : kl % nZeta < g.numPhi) (rL zL : K) (c : Comp) (a b d e : K)
    (hf : ∀ i j, 0 ≤ i → i < g.numR → 0 ≤ j → j < g.numZ → node g c (kl % nZeta) j i
      = a + b * line g.minR g.maxR g.numR i + d * line g.minZ g.maxZ g.numZ j
        + e * line g.minR g.maxR g.numR i * line g.minZ g.maxZ g.numZ j) :
    ∃ v, interpPoint g nZeta kl rL zL = .ok v ∧
      v c = a + b * clamp g.minR g.maxR rL + d * clamp g.minZ g.maxZ zL
        + e * clamp g.minR g.maxR rL * clamp g.minZ g.maxZ zL := by
  obtain ⟨v, i, j, p, q, ev, hc, hv⟩ := C35_bilinear g h nZeta kl hz hkl hk rL zL
  refine ⟨v, ev, ?_⟩
  rw [hv, hc.hr, hc.hz]
  unfold bilinear
  rw [hf i j hc.i0 (by have := hc.i1; omega) hc.j0 (by have := hc.j1; omega),
    hf i (j + 1) hc.i0 (by have := hc.i1; omega) (by have := hc.j0; omega) hc.j1,
    hf (i + 1) j (by have := hc.i0; omega) hc.i1 hc.j0 (by have := hc.j1; omega),
    hf (i + 1) (j + 1) (by have := hc.i0; omega) hc.i1 (by have := hc.j0; omega) hc.j1]
  ring

theorem line_bounds (lo hi : K) (num i : Int) (hn : 2 ≤ num) (hlt : lo < hi) (h0 : 0 ≤ i) (h1 : i < num) :
    clamp lo hi (line lo hi num i) = line lo hi num i := by
  have hn' : (0 : K) < (num : K) - 1 := by
    have : ((2 : Int) : K) ≤ (num : K) := Int.cast_le.mpr hn
    norm_num at this; linarith
  have hd : 0 < (hi - lo) / ((num : K) - 1) := div_pos (by linarith) hn'
  have hi0 : (0 : K) ≤ (i : K) := Int.cast_nonneg h0
  have hi1 : (i : K) ≤ (num : K) - 1 := by
    have : (i : K) ≤ ((num - 1 : Int) : K) := Int.cast_le.mpr (by omega)
    push_cast at this; exact this
  have a : lo ≤ line lo hi num i := by unfold line; linarith [mul_nonneg hi0 hd.le]
  have b : line lo hi num i ≤ hi := by
    unfold line
    have := mul_le_mul_of_nonneg_right hi1 hd.le
    rw [mul_div_cancel₀ _ hn'.ne'] at this; linarith
  unfold clamp
  rw [if_neg (not_lt.mpr a), if_neg (not_lt.mpr b)]

/-- At a grid point, including those on the outer edges, the value is the table entry. -/
theorem C35_nodes_exact (g : MGrid K) (h : Usable g) (nZeta kl : Int) (hz : 0 < nZeta) (hkl : 0 ≤ kl)
    (hk : kl % nZeta < g.numPhi) (i j : Int) (i0 : 0 ≤ i) (i1 : i < g.numR) (j0 : 0 ≤ j) (j1 : j < g.numZ) :
    ∃ v, interpPoint g nZeta kl (line g.minR g.maxR g.numR i) (line g.minZ g.maxZ g.numZ j) = .ok v ∧
      ∀ c, v c = node g c (kl % nZeta) j i := by
  obtain ⟨v, i', j', p, q, ev, hc, hv⟩ := C35_bilinear g h nZeta kl hz hkl hk
    (line g.minR g.maxR g.numR i) (line g.minZ g.maxZ g.numZ j)
  refine ⟨v, ev, fun c => ?_⟩
  rw [hv]
  have er := hc.hr
  have ez := hc.hz
  rw [line_bounds _ _ _ _ h.r2 h.r i0 i1] at er
  rw [line_bounds _ _ _ _ h.z2 h.z j0 j1] at ez
  have e1 := cell_unique g.minR g.maxR g.numR h.r2 h.r i' i p 0 hc.p0 hc.p1 le_rfl zero_le_one
    (by rw [← er]; ring) (fun i => (1 - q) * node g c (kl % nZeta) j' i + q * node g c (kl % nZeta) (j' + 1) i)
  have e2 := cell_unique g.minZ g.maxZ g.numZ h.z2 h.z j' j q 0 hc.q0 hc.q1 le_rfl zero_le_one
    (by rw [← ez]; ring) (fun j => node g c (kl % nZeta) j i)
  unfold bilinear
  beta_reduce at e1 e2
  linear_combination e1 + e2

/-- The loop: point `kl` of the thread's range is stored at `kl - ztMin`, from the table (plane
    `kl mod nZeta`), for all three components, with no access outside any array. -/
theorem C35_interpolate (g : MGrid K) (h : Usable g) (ztMin ztMax nZeta : Int) (hz : 0 < nZeta)
    (hP : nZeta ≤ g.numPhi) (h0 : 0 ≤ ztMin) (h1 : ztMin ≤ ztMax) (r z : Vec K) (hr : ztMax ≤ r.size)
    (hzs : ztMax ≤ z.size) (out : Comp → Vec K) (ho : ∀ c, (out c).size = ztMax - ztMin) :
    ∃ out', interpolate g ztMin ztMax nZeta r z out = .ok out' ∧
      ∀ kl, ztMin ≤ kl → kl < ztMax → ∃ v, interpPoint g nZeta kl (r.val kl) (z.val kl) = .ok v ∧
        ∀ c, (out' c).get (kl - ztMin) = .ok (v c) := by
  unfold interpolate
  simp only [h.loaded, h.fixed, Bool.not_true, Bool.false_eq_true, if_false]
  obtain ⟨o, e, hs, hv⟩ := forRangeM_inv (lo := ztMin) (hi := ztMax) h1 (fun kl out => do
      let r ← r.get kl
      let z ← z.get kl
      store out (kl - ztMin) (← interpPoint g nZeta kl r z)) out
    (fun (k : Int) (o : Comp → Vec K) => (∀ c, (o c).size = ztMax - ztMin) ∧
      ∀ kl, ztMin ≤ kl → kl < k → ∃ v, interpPoint g nZeta kl (r.val kl) (z.val kl) = .ok v ∧
        ∀ c, (o c).val (kl - ztMin) = v c)
    ⟨ho, fun kl a b => absurd b (by omega)⟩ (by
    rintro kl o k0 k1 ⟨hs, hv⟩
    obtain ⟨v, -, -, -, -, ev, -, -⟩ := C35_bilinear g h nZeta kl hz (by omega)
      (lt_of_lt_of_le (Int.emod_lt_of_pos kl hz) hP) (r.val kl) (z.val kl)
    refine ⟨fun c => ⟨(o c).size, upd (o c).val (kl - ztMin) (v c)⟩, ?_, ?_, ?_⟩
    · rw [Vec.get_ok r kl (by omega) (by omega), Vec.get_ok z kl (by omega) (by omega)]
      simp only [Outcome.bind_ok]
      rw [ev]
      simp only [Outcome.bind_ok]
      unfold store
      rw [Vec.set_ok _ _ _ (by omega) (by rw [hs]; omega), Vec.set_ok _ _ _ (by omega) (by rw [hs]; omega),
        Vec.set_ok _ _ _ (by omega) (by rw [hs]; omega)]
      simp only [Outcome.bind_ok, Outcome.pure_eq, Outcome.ok.injEq]
      funext c; cases c <;> rfl
    · intro c; exact hs c
    · intro kl' a0 a1
      by_cases e : kl' = kl
      · subst e; exact ⟨v, ev, fun c => by simp⟩
      · obtain ⟨v', ev', hv'⟩ := hv kl' a0 (by omega)
        exact ⟨v', ev', fun c => (upd_ne _ _ (by omega)).trans (hv' c)⟩)
  refine ⟨o, e, fun kl a0 a1 => ?_⟩
  obtain ⟨v, ev, hv'⟩ := hv kl a0 a1
  exact ⟨v, ev, fun c => by rw [Vec.get_ok _ _ (by omega) (by rw [hs]; omega), hv']⟩

/-- A prescribed boundary field is handed out unchanged. -/
theorem C35_fixed (g : MGrid K) (fb : Comp → Vec K) (ztMin ztMax nZeta : Int) (h0 : 0 ≤ ztMin)
    (h1 : ztMin ≤ ztMax) (hf : ∀ c, ztMax ≤ (fb c).size) (r z : Vec K) (out : Comp → Vec K)
    (ho : ∀ c, (out c).size = ztMax - ztMin) :
    ∃ out', interpolate (setFixed g fb) ztMin ztMax nZeta r z out = .ok out' ∧
      ∀ kl, ztMin ≤ kl → kl < ztMax → ∀ c, (out' c).get (kl - ztMin) = (fb c).get kl := by
  unfold interpolate setFixed
  simp only [Bool.not_true, Bool.false_eq_true, if_false, if_true]
  set g' : MGrid K := { g with fixedB := fb, loaded := true, fixed := true } with hg'
  obtain ⟨o, e, hs, hv⟩ := forRangeM_inv (lo := ztMin) (hi := ztMax) h1 (fun kl out => do
      store out (kl - ztMin) (← fixedPoint g' kl)) out
    (fun (k : Int) (o : Comp → Vec K) => (∀ c, (o c).size = ztMax - ztMin) ∧
      ∀ kl, ztMin ≤ kl → kl < k → ∀ c, (o c).val (kl - ztMin) = (fb c).val kl)
    ⟨ho, fun kl a b => absurd b (by omega)⟩ (by
    rintro kl o k0 k1 ⟨hs, hv⟩
    refine ⟨fun c => ⟨(o c).size, upd (o c).val (kl - ztMin) ((fb c).val kl)⟩, ?_, ?_, ?_⟩
    · unfold fixedPoint
      have e : g'.fixedB = fb := rfl
      rw [e, Vec.get_ok _ kl (by omega) (by have := hf .r; omega),
        Vec.get_ok _ kl (by omega) (by have := hf .p; omega),
        Vec.get_ok _ kl (by omega) (by have := hf .z; omega)]
      simp only [Outcome.bind_ok, Outcome.pure_eq]
      unfold store
      rw [Vec.set_ok _ _ _ (by omega) (by rw [hs]; omega), Vec.set_ok _ _ _ (by omega) (by rw [hs]; omega),
        Vec.set_ok _ _ _ (by omega) (by rw [hs]; omega)]
      simp only [Outcome.bind_ok, Outcome.pure_eq, Outcome.ok.injEq]
      funext c; cases c <;> rfl
    · intro c; exact hs c
    · intro kl' a0 a1 c
      by_cases e : kl' = kl
      · subst e; simp
      · exact (upd_ne _ _ (by omega)).trans (hv kl' a0 (by omega) c))
  refine ⟨o, e, fun kl a0 a1 c => ?_⟩
  rw [Vec.get_ok _ _ (by omega) (by rw [hs]; omega), hv kl a0 a1,
    Vec.get_ok _ _ (by omega) (by have := hf c; omega)]

/-- The check before a free-boundary run makes the table large enough for the grid the solver actually uses,
    provided the requested toroidal resolution was not raised. Missing for the full claim: the raised case,
    see `C35_raised_nzeta_reads_outside`. -/
theorem C35_run_check_partial (g : MGrid K) (lasym : Bool) (nfp mpol ntor ntheta nzeta mg ng : Int)
    (s : Sizes.Sizes) (hs : Sizes.mk lasym nfp mpol ntor ntheta nzeta mg ng = .ok s)
    (hc : runCheck g nzeta = .ok ()) (hn : if ntor = 0 then 1 ≤ nzeta else 2 * ntor + 4 ≤ nzeta) :
    s.nZeta = g.numPhi := by
  unfold runCheck at hc
  split at hc
  · cases hc
  · rename_i hne
    simp only [ne_eq, not_not] at hne
    unfold Sizes.mk at hs
    split at hs
    · cases hs
    split at hs
    · cases hs
    split at hs
    · cases hs
    cases hs
    dsimp only
    by_cases e : ntor = 0
    · rw [if_pos e] at hn
      have : ¬ (ntor = 0 ∧ nzeta < 1) := by omega
      have h2 : ¬ ntor > 0 := by omega
      rw [if_neg h2, if_neg this, hne]
    · rw [if_neg e] at hn
      have h1 : ¬ (ntor = 0 ∧ nzeta < 1) := by omega
      have h2 : ntor > 0 := by omega
      have h3 : ¬ nzeta < 2 * ntor + 4 := by omega
      rw [if_pos h2, if_neg h1, if_neg h3, hne]

/-! ### the hypotheses can be met, and where the claim fails -/

/-- a 3 by 2 table with 2 planes over the rationals -/
def demoGrid : MGrid ℚ where
  b := fun _ => ⟨12, fun i => i⟩
  nfp := 1
  numR := 3
  minR := 1
  maxR := 2
  deltaR := delta 1 2 3
  numZ := 2
  minZ := -1
  maxZ := 1
  deltaZ := delta (-1) 1 2
  numPhi := 2
  nextcur := 1
  mgrid_mode := "S"
  loaded := true
  fixed := false
  fixedB := fun _ => ⟨0, fun _ => 0⟩

example : Usable demoGrid where
  loaded := rfl
  fixed := rfl
  r2 := by decide
  z2 := by decide
  r := by decide +kernel
  z := by decide +kernel
  dr := rfl
  dz := rfl
  size := fun _ => rfl

/-- a point inside a cell, a grid point on the upper edge, a point outside -/
example : (interpPoint demoGrid 2 1 (5/4) 0).bind (fun v => .ok (v .p)) = .ok 8
    ∧ (interpPoint demoGrid 2 1 2 1).bind (fun v => .ok (v .p)) = .ok 11
    ∧ (interpPoint demoGrid 2 1 7 (-3)).bind (fun v => .ok (v .p)) = .ok 8 := by decide +kernel

/-- F30: with `ntor = 1` and `nzeta = 2` in the input and a table with 2 planes the check passes, the solver
    raises its own resolution to 6, and the third toroidal plane is read behind the end of the table. -/
theorem C35_raised_nzeta_reads_outside :
    runCheck demoGrid 2 = .ok () ∧
    (∃ s, Sizes.mk false 1 2 1 0 2 0 0 = .ok s ∧ s.nZeta = 6 ∧
      interpPoint demoGrid s.nZeta 2 (3/2) 0 = .ub "vector index out of bounds") := by
  refine ⟨by decide +kernel, ?_⟩
  refine ⟨_, rfl, by decide +kernel, ?_⟩
  have : (interpPoint demoGrid 6 2 (3/2) 0).bind (fun _ => .ok ())
      = .ub "vector index out of bounds" := by decide +kernel
  have e : ∀ o : Outcome (Comp → ℚ), o.bind (fun _ => .ok ()) = .ub "vector index out of bounds" →
      o = .ub "vector index out of bounds" := by
    intro o ho; cases o <;> simp_all [Outcome.bind]
  exact e _ this

/-- a table with a single radial point has no grid spacing: every result is not a number -/
theorem C35_single_point_not_a_number (g : MGrid K) (h : g.numR = 1) (hd : g.deltaR = delta g.minR g.maxR g.numR)
    (nZeta kl : Int) (hz : nZeta ≠ 0) (r z : K) : interpPoint g nZeta kl r z = .throws "not a number" := by
  unfold interpPoint
  rw [if_neg hz, hd, h]
  simp [locate, delta]

end Verif.Mgrid
