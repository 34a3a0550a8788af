import Verif.Mgrid.Model
import Verif.Common.FlatSum
import Mathlib.Tactic.Ring
import Mathlib.Tactic.Linarith
import Mathlib.Tactic.FieldSimp

namespace Verif.Mgrid
open Verif Finset

variable {K : Type} [Field K] [LinearOrder K] [IsStrictOrderedRing K] [FloorRing K]

/-! ### accumulation -/

/-- all three arrays have `N` elements -/
def Sized (N : Int) (b : Comp → Vec K) : Prop := ∀ c, (b c).size = N

/-- `x c l` has been added to the elements below `L` -/
def Added (N : Int) (b0 : Comp → Vec K) (x : Comp → Int → K) (L : Int) (b : Comp → Vec K) : Prop :=
  Sized N b ∧ ∀ c l, 0 ≤ l → l < N → (b c).val l = (b0 c).val l + if l < L then x c l else 0

omit [LinearOrder K] [IsStrictOrderedRing K] [FloorRing K] in
theorem addAt_ok (b : Comp → Vec K) (c : Comp) (i : Int) (x : K) (h0 : 0 ≤ i) (h1 : i < (b c).size) :
    addAt b c i x = .ok (Function.update b c ⟨(b c).size, upd (b c).val i ((b c).val i + x)⟩) := by
  unfold addAt
  rw [Vec.get_ok _ _ h0 h1, Outcome.bind_ok, Vec.set_ok _ _ _ h0 h1, Outcome.bind_ok, Outcome.pure_eq]

omit [LinearOrder K] [IsStrictOrderedRing K] [FloorRing K] in
theorem three_adds (N : Int) (b : Comp → Vec K) (hb : Sized N b) (l : Int) (h0 : 0 ≤ l) (h1 : l < N)
    (x : Comp → K) :
    ∃ b', (do
        let b ← addAt b .r l (x .r)
        let b ← addAt b .p l (x .p)
        addAt b .z l (x .z)) = Outcome.ok b' ∧ Sized N b' ∧
      ∀ c l', (b' c).val l' = (b c).val l' + if l' = l then x c else 0 := by
  rw [addAt_ok b .r l _ h0 (by rw [hb]; exact h1), Outcome.bind_ok,
    addAt_ok _ .p l _ h0 (by simp [hb .p, h1]), Outcome.bind_ok,
    addAt_ok _ .z l _ h0 (by simp [hb .z, h1])]
  refine ⟨_, rfl, ?_, ?_⟩
  · intro c; cases c <;> simp [hb _]
  · intro c l'
    cases c <;> simp [upd] <;> split <;> simp_all

omit [LinearOrder K] [IsStrictOrderedRing K] [FloorRing K] in
theorem added_step {N : Int} {b0 b b' : Comp → Vec K} {x : Comp → Int → K} {l : Int}
    (h : Added N b0 x l b) (hs : Sized N b')
    (hv : ∀ c l', (b' c).val l' = (b c).val l' + if l' = l then x c l else 0) :
    Added N b0 x (l + 1) b' := by
  refine ⟨hs, fun c l' h0 h1 => ?_⟩
  rw [hv, h.2 c l' h0 h1]
  by_cases e : l' = l
  · subst e; simp
  · have : (l' < l + 1) ↔ l' < l := by omega
    simp [e, this]

omit [LinearOrder K] [IsStrictOrderedRing K] [FloorRing K] in
theorem shapeOk_spec (a : Arr3 K) (nphi nz nr : Int) (h : shapeOk a nphi nz nr = true) :
    a.n0 = nphi ∧ ∀ i, 0 ≤ i → i < nphi → a.n1 i = nz ∧ ∀ j, 0 ≤ j → j < nz → a.n2 i j = nr := by
  simp only [shapeOk, Bool.and_eq_true, decide_eq_true_eq, List.all_eq_true, mem_irange] at h
  exact ⟨h.1, fun i h0 h1 => ⟨(h.2 i ⟨h0, h1⟩).1, fun j k0 k1 => (h.2 i ⟨h0, h1⟩).2 j ⟨k0, k1⟩⟩⟩

omit [Field K] [LinearOrder K] [IsStrictOrderedRing K] [FloorRing K] in
theorem arr3_get (a : Arr3 K) (nphi nz nr : Int)
    (h : a.n0 = nphi ∧ ∀ i, 0 ≤ i → i < nphi → a.n1 i = nz ∧ ∀ j, 0 ≤ j → j < nz → a.n2 i j = nr)
    (i j k : Int) (hi : 0 ≤ i ∧ i < nphi) (hj : 0 ≤ j ∧ j < nz) (hk : 0 ≤ k ∧ k < nr) :
    a.get i j k = .ok (a.val i j k) := by
  have h1 := (h.2 i hi.1 hi.2).1
  have h2 := (h.2 i hi.1 hi.2).2 j hj.1 hj.2
  unfold Arr3.get
  rw [if_pos ⟨⟨hi.1, by rw [h.1]; exact hi.2⟩, ⟨hj.1, by rw [h1]; exact hj.2⟩, hk.1, by rw [h2]; exact hk.2⟩]

/-- the contribution at flat position `l` -/
def flatVal (numZ numR : Int) (a : Arr3 K) (l : Int) : K :=
  a.val (l / numR / numZ) (l / numR % numZ) (l % numR)

omit [Field K] [LinearOrder K] [IsStrictOrderedRing K] [FloorRing K] in
theorem flatVal_at (numZ numR : Int) (a : Arr3 K) (i j k : Int) (hj : 0 ≤ j ∧ j < numZ)
    (hk : 0 ≤ k ∧ k < numR) : flatVal numZ numR a ((i * numZ + j) * numR + k) = a.val i j k := by
  unfold flatVal
  have hR : 0 < numR := by omega
  have hZ : 0 < numZ := by omega
  have e1 : ((i * numZ + j) * numR + k) / numR = i * numZ + j := by
    rw [add_comm, Int.add_mul_ediv_right _ _ hR.ne', Int.ediv_eq_zero_of_lt hk.1 hk.2, zero_add]
  have e2 : (i * numZ + j) / numZ = i := by
    rw [add_comm, Int.add_mul_ediv_right _ _ hZ.ne', Int.ediv_eq_zero_of_lt hj.1 hj.2, zero_add]
  have e3 : (i * numZ + j) % numZ = j := by
    rw [add_comm, Int.add_mul_emod_self_right, Int.emod_eq_of_lt hj.1 hj.2]
  have e4 : ((i * numZ + j) * numR + k) % numR = k := by
    rw [add_comm, Int.add_mul_emod_self_right, Int.emod_eq_of_lt hk.1 hk.2]
  rw [e1, e2, e3, e4]

/-- flat position of a grid point -/
theorem lin_bounds {nphi nz nr i j k : Int} (hi : 0 ≤ i ∧ i < nphi) (hj : 0 ≤ j ∧ j < nz)
    (hk : 0 ≤ k ∧ k < nr) : 0 ≤ (i * nz + j) * nr + k ∧ (i * nz + j) * nr + k < nphi * nz * nr := by
  obtain ⟨hi0, hi1⟩ := hi
  obtain ⟨hj0, hj1⟩ := hj
  obtain ⟨hk0, hk1⟩ := hk
  have a0 : 0 ≤ i * nz + j := by have := mul_nonneg hi0 (by omega : 0 ≤ nz); omega
  have a1 : i * nz + j + 1 ≤ nphi * nz := by
    have := mul_le_mul_of_nonneg_right (by omega : i + 1 ≤ nphi) (by omega : 0 ≤ nz)
    rw [add_mul, one_mul] at this; omega
  have b0 := mul_nonneg a0 (by omega : 0 ≤ nr)
  have b1 := mul_le_mul_of_nonneg_right a1 (by omega : 0 ≤ nr)
  rw [add_mul, one_mul] at b1
  constructor <;> omega

/-- the three arrays read for coil group `i` -/
def pick (ar ap az : Arr3 K) : Comp → Arr3 K
  | .r => ar
  | .p => ap
  | .z => az

omit [LinearOrder K] [IsStrictOrderedRing K] [FloorRing K] in
theorem fileAccumulate_ok (numPhi numZ numR : Int) (hP : 0 ≤ numPhi) (hZ : 0 ≤ numZ) (hR : 0 ≤ numR)
    (ar ap az : Arr3 K)
    (h1 : shapeOk ar numPhi numZ numR = true) (h2 : shapeOk ap numPhi numZ numR = true)
    (h3 : shapeOk az numPhi numZ numR = true) (cur : Vec K) (i : Int) (hi : 0 ≤ i ∧ i < cur.size)
    (b : Comp → Vec K) (hb : Sized (numPhi * numZ * numR) b) :
    ∃ b', fileAccumulate numPhi numZ numR ar ap az cur i b = .ok b' ∧
      Added (numPhi * numZ * numR) b (fun c l => flatVal numZ numR (pick ar ap az c) l * cur.val i)
        (numPhi * numZ * numR) b' := by
  unfold fileAccumulate
  set N := numPhi * numZ * numR with hN
  set x : Comp → Int → K := fun c l => flatVal numZ numR (pick ar ap az c) l * cur.val i with hx
  have g1 := shapeOk_spec _ _ _ _ h1
  have g2 := shapeOk_spec _ _ _ _ h2
  have g3 := shapeOk_spec _ _ _ _ h3
  obtain ⟨b', e, hb'⟩ := forRangeM_inv (lo := 0) (hi := numPhi) hP _ b
    (fun (k : Int) (b' : Comp → Vec K) => Added N b x (k * numZ * numR) b')
    ⟨hb, fun c l h0 _ => by rw [if_neg (by simp; omega), add_zero]⟩ (by
    intro phi bp hp0 hp1 hbp
    obtain ⟨b', e, hb'⟩ := forRangeM_inv (lo := 0) (hi := numZ) hZ
      (fun index_z b => forRangeM 0 numR
        (fun index_r b => fileCell numZ numR ar ap az cur i phi index_z index_r b) b) bp
      (fun (k : Int) (b' : Comp → Vec K) => Added N b x ((phi * numZ + k) * numR) b')
      (by simpa using hbp) (by
      intro z bz hz0 hz1 hbz
      obtain ⟨b', e, hb'⟩ := forRangeM_inv (lo := 0) (hi := numR) hR
        (fun index_r b => fileCell numZ numR ar ap az cur i phi z index_r b) bz
        (fun (k : Int) (b' : Comp → Vec K) => Added N b x ((phi * numZ + z) * numR + k) b')
        (by simpa using hbz) (by
        intro r br hr0 hr1 hbr
        obtain ⟨l0, l1⟩ := lin_bounds ⟨hp0, hp1⟩ ⟨hz0, hz1⟩ ⟨hr0, hr1⟩
        obtain ⟨b', e, hs, hv⟩ := three_adds N br hbr.1 ((phi * numZ + z) * numR + r) l0 l1
          (fun c => (pick ar ap az c).val phi z r * cur.val i)
        refine ⟨b', ?_, ?_⟩
        · unfold fileCell
          rw [Vec.get_ok _ _ hi.1 hi.2, arr3_get ar _ _ _ g1 phi z r ⟨hp0, hp1⟩ ⟨hz0, hz1⟩ ⟨hr0, hr1⟩,
            arr3_get ap _ _ _ g2 phi z r ⟨hp0, hp1⟩ ⟨hz0, hz1⟩ ⟨hr0, hr1⟩,
            arr3_get az _ _ _ g3 phi z r ⟨hp0, hp1⟩ ⟨hz0, hz1⟩ ⟨hr0, hr1⟩]
          simp only [Outcome.bind_ok]
          exact e
        · have := added_step (x := x) hbr hs (by
            intro c l'
            rw [hv, hx]
            beta_reduce
            rw [flatVal_at numZ numR _ phi z r ⟨hz0, hz1⟩ ⟨hr0, hr1⟩])
          rwa [show (phi * numZ + z) * numR + r + 1 = (phi * numZ + z) * numR + (r + 1) by ring] at this)
      refine ⟨b', e, ?_⟩
      rwa [show (phi * numZ + z) * numR + numR = (phi * numZ + (z + 1)) * numR by ring] at hb')
    refine ⟨b', e, ?_⟩
    rwa [show (phi * numZ + numZ) * numR = (phi + 1) * numZ * numR by ring] at hb')
  exact ⟨b', e, hb'⟩

/-! ### cells -/

/-- in exact arithmetic the lower grid line and the position in the cell -/
theorem locate_ok (lo hi : K) (num : Int) (hn : 2 ≤ num) (hlt : lo < hi) (x : K) (h0 : lo ≤ x) (h1 : x ≤ hi) :
    ∃ i p, locate lo (delta lo hi num) x = .ok (i, p) ∧ 0 ≤ i ∧ i ≤ num - 1 ∧ 0 ≤ p ∧ p < 1 ∧
      x = lo + ((i : K) + p) * ((hi - lo) / ((num : K) - 1)) ∧ (i = num - 1 → p = 0) := by
  unfold locate delta
  rw [if_neg (by omega)]
  have hn' : (0 : K) < (num : K) - 1 := by
    have : ((2 : Int) : K) ≤ (num : K) := Int.cast_le.mpr hn
    norm_num at this; linarith
  set d := (hi - lo) / ((num : K) - 1) with hd
  have hdpos : 0 < d := div_pos (by linarith) hn'
  dsimp only
  rw [if_neg hdpos.ne']
  set q := (x - lo) / d with hq
  have hq0 : 0 ≤ q := div_nonneg (by linarith) hdpos.le
  have hq1 : q ≤ (num : K) - 1 := by
    rw [hq, div_le_iff₀ hdpos, hd]
    field_simp
    linarith
  have hxq : x = lo + q * d := by rw [hq]; field_simp; ring
  have hf0 : 0 ≤ ⌊q⌋ := Int.floor_nonneg.mpr hq0
  have hf1 : ⌊q⌋ ≤ num - 1 := by
    have : (⌊q⌋ : K) ≤ ((num - 1 : Int) : K) := by push_cast; exact (Int.floor_le q).trans hq1
    exact_mod_cast this
  have hp : (x - (lo + (⌊q⌋ : K) * d)) / d = q - ⌊q⌋ := by rw [hxq]; field_simp; ring
  refine ⟨⌊q⌋, q - ⌊q⌋, by rw [hp], hf0, hf1, ?_, ?_, ?_, ?_⟩
  · linarith [Int.floor_le q]
  · linarith [Int.lt_floor_add_one q]
  · rw [hxq]; ring
  · intro e
    have := Int.floor_le q
    rw [e] at this ⊢
    push_cast at this ⊢
    linarith

end Verif.Mgrid
