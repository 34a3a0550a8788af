import Verif.Resize.Model

/-!
# C25: change of the Fourier resolution
-/
namespace Verif.Resize
open Verif

variable {α : Type} [Zero α]

/-! ## vocabulary -/

/-- an axis array for `ntor` -/
def AxisShape (ntor : Int) (v : Vec α) : Prop := v.size = ntor + 1

/-- a boundary array for `mpol`, `ntor` -/
def BdyShape (mpol ntor : Int) (v : Mat α) : Prop := v.rows = mpol ∧ v.cols = 2 * ntor + 1

/-- coefficient of toroidal mode `n` of an axis array for `ntor`; 0 if the array does not have the mode -/
def axisCoeff (ntor : Int) (v : Vec α) (n : Int) : α := if 0 ≤ n ∧ n ≤ ntor then v.val n else 0

/-- coefficient of mode `(m, n)` of a boundary array for `mpol`, `ntor` -/
def bdyCoeff (mpol ntor : Int) (v : Mat α) (m n : Int) : α :=
  if (0 ≤ m ∧ m < mpol) ∧ -ntor ≤ n ∧ n ≤ ntor then v.val m (n + ntor) else 0

/-- an absent array stands for zeros -/
def axisCoeff? (ntor : Int) (v : Option (Vec α)) (n : Int) : α :=
  match v with | none => 0 | some v => axisCoeff ntor v n

def bdyCoeff? (mpol ntor : Int) (v : Option (Mat α)) (m n : Int) : α :=
  match v with | none => 0 | some v => bdyCoeff mpol ntor v m n

/-- the arrays that are used have the shape given by `mpol`, `ntor`; without stellarator symmetry the
    asymmetric arrays may be absent -/
structure WellShaped (d : Indata α) : Prop where
  mpol : 0 ≤ d.mpol
  ntor : 0 ≤ d.ntor
  raxis_c : AxisShape d.ntor d.raxis_c
  zaxis_s : AxisShape d.ntor d.zaxis_s
  raxis_s : d.lasym = true → ∀ v, d.raxis_s = some v → AxisShape d.ntor v
  zaxis_c : d.lasym = true → ∀ v, d.zaxis_c = some v → AxisShape d.ntor v
  rbc : BdyShape d.mpol d.ntor d.rbc
  zbs : BdyShape d.mpol d.ntor d.zbs
  rbs : d.lasym = true → ∀ v, d.rbs = some v → BdyShape d.mpol d.ntor v
  zbc : d.lasym = true → ∀ v, d.zbc = some v → BdyShape d.mpol d.ntor v

/-! ## one array -/

theorem resizeAxis_ok (ntor new_ntor : Int) (h : 0 ≤ ntor) (h' : 0 ≤ new_ntor) (old : Vec α)
    (hs : AxisShape ntor old) :
    ∃ v, resizeAxis ntor new_ntor old = .ok v ∧ AxisShape new_ntor v ∧
      ∀ n, axisCoeff new_ntor v n = if n ≤ new_ntor then axisCoeff ntor old n else 0 := by
  unfold AxisShape at hs
  unfold resizeAxis
  rw [Vec.zero, if_pos (by omega)]
  obtain ⟨v, e, hsz, hv⟩ := forRangeM_inv (lo := 0) (hi := min ntor new_ntor + 1) (by omega)
    (fun i (z : Vec α) => do
      let a ← old.get i
      z.set i a) ⟨new_ntor + 1, fun _ => 0⟩
    (fun j z => z.size = new_ntor + 1 ∧ ∀ n, z.val n = if 0 ≤ n ∧ n < j then old.val n else 0)
    ⟨rfl, fun n => by rw [if_neg (by omega)]⟩
    (by
      rintro j z h1 h2 ⟨h3, h4⟩
      refine ⟨⟨z.size, upd z.val j (old.val j)⟩, ?_, h3, fun n => ?_⟩
      · rw [Vec.get_ok _ _ (by omega) (by omega)]
        simp only [Outcome.bind_ok]
        rw [Vec.set_ok _ _ _ (by omega) (by omega)]
      · dsimp only
        by_cases e : n = j
        · subst e; rw [upd_same, if_pos (by omega)]
        · rw [upd_ne _ _ e, h4]
          by_cases e2 : 0 ≤ n ∧ n < j
          · rw [if_pos e2, if_pos (by omega)]
          · rw [if_neg e2, if_neg (by omega)])
  refine ⟨v, by simpa using e, hsz, fun n => ?_⟩
  unfold axisCoeff
  by_cases e1 : 0 ≤ n ∧ n ≤ new_ntor
  · rw [if_pos e1, hv, if_pos e1.2]
    by_cases e2 : 0 ≤ n ∧ n ≤ ntor
    · rw [if_pos e2, if_pos (by omega)]
    · rw [if_neg e2, if_neg (by omega)]
  · rw [if_neg e1]
    split
    · rw [if_neg (by omega)]
    · rfl

/-- the double loop shared by C++ and Python -/
theorem copyLoop (mpol ntor new_mpol new_ntor : Int) (h1 : 0 ≤ mpol) (h2 : 0 ≤ ntor) (h3 : 0 ≤ new_mpol)
    (h4 : 0 ≤ new_ntor) (old : Mat α) (hs : BdyShape mpol ntor old) :
    ∃ v, forRangeM 0 (min mpol new_mpol) (fun m (z : Mat α) =>
        forRangeM (-(min ntor new_ntor)) (min ntor new_ntor + 1) (fun n z => do
          let a ← old.get m (n + ntor)
          z.set m (n + new_ntor) a) z) ⟨new_mpol, 2 * new_ntor + 1, fun _ _ => 0⟩ = .ok v ∧
      BdyShape new_mpol new_ntor v ∧
      ∀ m n, bdyCoeff new_mpol new_ntor v m n
        = if m < new_mpol ∧ -new_ntor ≤ n ∧ n ≤ new_ntor then bdyCoeff mpol ntor old m n else 0 := by
  obtain ⟨hr, hc⟩ := hs
  obtain ⟨v, e, hshape, hv⟩ := forRangeM_inv (lo := 0) (hi := min mpol new_mpol) (by omega)
    (fun m (z : Mat α) =>
        forRangeM (-(min ntor new_ntor)) (min ntor new_ntor + 1) (fun n z => do
          let a ← old.get m (n + ntor)
          z.set m (n + new_ntor) a) z) ⟨new_mpol, 2 * new_ntor + 1, fun _ _ => 0⟩
    (fun k z => BdyShape new_mpol new_ntor z ∧ ∀ m n, z.val m (n + new_ntor)
      = if (0 ≤ m ∧ m < k) ∧ -(min ntor new_ntor) ≤ n ∧ n ≤ min ntor new_ntor then old.val m (n + ntor) else 0)
    ⟨⟨rfl, rfl⟩, fun m n => by rw [if_neg (by omega)]⟩
    (by
      rintro k z k1 k2 ⟨k3, k4⟩
      obtain ⟨w, ew, hw1, hw2⟩ := forRangeM_inv (lo := -(min ntor new_ntor)) (hi := min ntor new_ntor + 1) (by omega)
        (fun n (z : Mat α) => do
          let a ← old.get k (n + ntor)
          z.set k (n + new_ntor) a) z
        (fun j z' => BdyShape new_mpol new_ntor z' ∧ ∀ m n, z'.val m (n + new_ntor)
          = if m = k ∧ -(min ntor new_ntor) ≤ n ∧ n < j then old.val m (n + ntor) else z.val m (n + new_ntor))
        ⟨k3, fun m n => by rw [if_neg (by omega)]⟩
        (by
          rintro j z' j1 j2 ⟨⟨j3, j4⟩, j5⟩
          refine ⟨⟨z'.rows, z'.cols, fun i' j' => if i' = k ∧ j' = j + new_ntor then old.val k (j + ntor)
            else z'.val i' j'⟩, ?_, ⟨j3, j4⟩, fun m n => ?_⟩
          · rw [Mat.get_ok _ _ _ (by omega)]
            simp only [Outcome.bind_ok]
            rw [Mat.set_ok _ _ _ _ (by omega)]
          · dsimp only
            by_cases e : m = k ∧ n = j
            · obtain ⟨rfl, rfl⟩ := e
              rw [if_pos ⟨rfl, rfl⟩, if_pos (by omega)]
            · rw [if_neg (by omega), j5]
              by_cases e2 : m = k ∧ -(min ntor new_ntor) ≤ n ∧ n < j
              · rw [if_pos e2, if_pos (by omega)]
              · rw [if_neg e2, if_neg (by omega)])
      refine ⟨w, ew, hw1, fun m n => ?_⟩
      rw [hw2]
      by_cases e : m = k ∧ -(min ntor new_ntor) ≤ n ∧ n < min ntor new_ntor + 1
      · rw [if_pos e, if_pos (by omega)]
      · rw [if_neg e, k4]
        by_cases e2 : (0 ≤ m ∧ m < k) ∧ -(min ntor new_ntor) ≤ n ∧ n ≤ min ntor new_ntor
        · rw [if_pos e2, if_pos (by omega)]
        · rw [if_neg e2, if_neg (by omega)])
  refine ⟨v, e, hshape, fun m n => ?_⟩
  unfold bdyCoeff
  by_cases e1 : (0 ≤ m ∧ m < new_mpol) ∧ -new_ntor ≤ n ∧ n ≤ new_ntor
  · rw [if_pos e1, hv, if_pos (show m < new_mpol ∧ _ from ⟨e1.1.2, e1.2⟩)]
    by_cases e2 : (0 ≤ m ∧ m < mpol) ∧ -ntor ≤ n ∧ n ≤ ntor
    · rw [if_pos e2, if_pos (by omega)]
    · rw [if_neg e2, if_neg (by omega)]
  · rw [if_neg e1]
    split
    · rw [if_neg (by omega)]
    · rfl

theorem resizedCoeff_ok (mpol ntor new_mpol new_ntor : Int) (h1 : 0 ≤ mpol) (h2 : 0 ≤ ntor) (h3 : 0 ≤ new_mpol)
    (h4 : 0 ≤ new_ntor) (old : Mat α) (hs : BdyShape mpol ntor old) :
    ∃ v, resizedCoeff mpol ntor new_mpol new_ntor old = .ok v ∧ BdyShape new_mpol new_ntor v ∧
      ∀ m n, bdyCoeff new_mpol new_ntor v m n
        = if m < new_mpol ∧ -new_ntor ≤ n ∧ n ≤ new_ntor then bdyCoeff mpol ntor old m n else 0 := by
  obtain ⟨v, e, h⟩ := copyLoop mpol ntor new_mpol new_ntor h1 h2 h3 h4 old hs
  refine ⟨v, ?_, h⟩
  unfold resizedCoeff
  simp only [Mat.zero]
  rw [if_pos (by omega)]
  simpa using e

/-! ## the C++ routine -/

/-- the relation between the input before and after -/
structure Resized (d d' : Indata α) (mp nt : Int) : Prop where
  lasym : d'.lasym = d.lasym
  mpol : d'.mpol = mp
  ntor : d'.ntor = nt
  shape : WellShaped d'
  present : d.lasym = true → (∃ a b c e, d'.raxis_s = some a ∧ d'.zaxis_c = some b ∧ d'.rbs = some c ∧ d'.zbc = some e)
  axis : ∀ n, n ≤ nt →
    axisCoeff nt d'.raxis_c n = axisCoeff d.ntor d.raxis_c n ∧
    axisCoeff nt d'.zaxis_s n = axisCoeff d.ntor d.zaxis_s n ∧
    (d.lasym = true → axisCoeff? nt d'.raxis_s n = axisCoeff? d.ntor d.raxis_s n ∧
      axisCoeff? nt d'.zaxis_c n = axisCoeff? d.ntor d.zaxis_c n)
  boundary : ∀ m n, m < mp → -nt ≤ n → n ≤ nt →
    bdyCoeff mp nt d'.rbc m n = bdyCoeff d.mpol d.ntor d.rbc m n ∧
    bdyCoeff mp nt d'.zbs m n = bdyCoeff d.mpol d.ntor d.zbs m n ∧
    (d.lasym = true → bdyCoeff? mp nt d'.rbs m n = bdyCoeff? d.mpol d.ntor d.rbs m n ∧
      bdyCoeff? mp nt d'.zbc m n = bdyCoeff? d.mpol d.ntor d.zbc m n)

/-- the object after the zero defaults were put in -/
theorem emplace_spec (d : Indata α) (w : WellShaped d) (hl : d.lasym = true) :
    ∃ rs zc rb zb, emplaceVec d.raxis_s (d.ntor + 1) = .ok rs ∧ emplaceVec d.zaxis_c (d.ntor + 1) = .ok zc ∧
      emplaceMat d.rbs d.mpol (2 * d.ntor + 1) = .ok rb ∧ emplaceMat d.zbc d.mpol (2 * d.ntor + 1) = .ok zb ∧
      AxisShape d.ntor rs ∧ AxisShape d.ntor zc ∧ BdyShape d.mpol d.ntor rb ∧ BdyShape d.mpol d.ntor zb ∧
      (∀ n, axisCoeff d.ntor rs n = axisCoeff? d.ntor d.raxis_s n) ∧
      (∀ n, axisCoeff d.ntor zc n = axisCoeff? d.ntor d.zaxis_c n) ∧
      (∀ m n, bdyCoeff d.mpol d.ntor rb m n = bdyCoeff? d.mpol d.ntor d.rbs m n) ∧
      (∀ m n, bdyCoeff d.mpol d.ntor zb m n = bdyCoeff? d.mpol d.ntor d.zbc m n) ∧
      (∀ v, d.raxis_s = some v → rs = v) ∧ (∀ v, d.zaxis_c = some v → zc = v) ∧
      (∀ v, d.rbs = some v → rb = v) ∧ (∀ v, d.zbc = some v → zb = v) := by
  have hn := w.ntor
  have hm := w.mpol
  have V : ∀ x : Option (Vec α), (∀ v, x = some v → AxisShape d.ntor v) →
      ∃ r, emplaceVec x (d.ntor + 1) = .ok r ∧ AxisShape d.ntor r ∧
        (∀ n, axisCoeff d.ntor r n = axisCoeff? d.ntor x n) ∧ ∀ v, x = some v → r = v := by
    intro x hx
    cases x with
    | none =>
      refine ⟨⟨d.ntor + 1, fun _ => 0⟩, ?_, rfl, fun n => ?_, by simp⟩
      · simp only [emplaceVec, Vec.zero]; rw [if_pos (by omega)]
      · simp [axisCoeff, axisCoeff?]
    | some v => exact ⟨v, rfl, hx v rfl, fun n => rfl, fun _ h => Option.some.inj h⟩
  have M : ∀ x : Option (Mat α), (∀ v, x = some v → BdyShape d.mpol d.ntor v) →
      ∃ r, emplaceMat x d.mpol (2 * d.ntor + 1) = .ok r ∧ BdyShape d.mpol d.ntor r ∧
        (∀ m n, bdyCoeff d.mpol d.ntor r m n = bdyCoeff? d.mpol d.ntor x m n) ∧ ∀ v, x = some v → r = v := by
    intro x hx
    cases x with
    | none =>
      refine ⟨⟨d.mpol, 2 * d.ntor + 1, fun _ _ => 0⟩, ?_, ⟨rfl, rfl⟩, fun m n => ?_, by simp⟩
      · simp only [emplaceMat, Mat.zero]; rw [if_pos (by omega)]
      · simp [bdyCoeff, bdyCoeff?]
    | some v => exact ⟨v, rfl, hx v rfl, fun m n => rfl, fun _ h => Option.some.inj h⟩
  obtain ⟨a, a1, a2, a3, a4⟩ := V d.raxis_s (w.raxis_s hl)
  obtain ⟨b, b1, b2, b3, b4⟩ := V d.zaxis_c (w.zaxis_c hl)
  obtain ⟨c, c1, c2, c3, c4⟩ := M d.rbs (w.rbs hl)
  obtain ⟨e, e1, e2, e3, e4⟩ := M d.zbc (w.zbc hl)
  exact ⟨a, b, c, e, a1, b1, c1, e1, a2, b2, c2, e2, a3, b3, c3, e3, a4, b4, c4, e4⟩

/-- **C25**: for every well-shaped input and every non-negative new resolution the call returns, the arrays
    have the new shapes, every coefficient of a mode of the new resolution is the old one (0 if the old
    resolution did not have it). -/
theorem C25_set_mpol_ntor (d : Indata α) (w : WellShaped d) (mp nt : Int) (hmp : 0 ≤ mp) (hnt : 0 ≤ nt) :
    ∃ d', setMpolNtor d mp nt = .ok d' ∧ Resized d d' mp nt := by
  have hn := w.ntor
  have hm := w.mpol
  obtain ⟨v1, e1, s1, c1⟩ := resizeAxis_ok d.ntor nt hn hnt d.raxis_c w.raxis_c
  obtain ⟨v2, e2, s2, c2⟩ := resizeAxis_ok d.ntor nt hn hnt d.zaxis_s w.zaxis_s
  obtain ⟨b1, f1, t1, g1⟩ := resizedCoeff_ok d.mpol d.ntor mp nt hm hn hmp hnt d.rbc w.rbc
  obtain ⟨b2, f2, t2, g2⟩ := resizedCoeff_ok d.mpol d.ntor mp nt hm hn hmp hnt d.zbs w.zbs
  unfold setMpolNtor
  by_cases hl : d.lasym = true
  · obtain ⟨rs, zc, rb, zb, x1, x2, x3, x4, y1, y2, y3, y4, z1, z2, z3, z4, _⟩ := emplace_spec d w hl
    obtain ⟨v3, e3, s3, c3⟩ := resizeAxis_ok d.ntor nt hn hnt rs y1
    obtain ⟨v4, e4, s4, c4⟩ := resizeAxis_ok d.ntor nt hn hnt zc y2
    obtain ⟨b3, f3, t3, g3⟩ := resizedCoeff_ok d.mpol d.ntor mp nt hm hn hmp hnt rb y3
    obtain ⟨b4, f4, t4, g4⟩ := resizedCoeff_ok d.mpol d.ntor mp nt hm hn hmp hnt zb y4
    simp only [hl, if_true, x1, x2, x3, x4, Outcome.bind_ok, Outcome.pure_eq]
    by_cases same : mp = d.mpol ∧ nt = d.ntor
    · rw [if_pos same]
      obtain ⟨rfl, rfl⟩ := same
      refine ⟨_, rfl, ⟨hl ▸ rfl, rfl, rfl, ⟨hm, hn, w.raxis_c, w.zaxis_s, ?_, ?_, w.rbc, w.zbs, ?_, ?_⟩, ?_, ?_, ?_⟩⟩
      · intro _ v hv; simp only [Option.some.injEq] at hv; exact hv ▸ y1
      · intro _ v hv; simp only [Option.some.injEq] at hv; exact hv ▸ y2
      · intro _ v hv; simp only [Option.some.injEq] at hv; exact hv ▸ y3
      · intro _ v hv; simp only [Option.some.injEq] at hv; exact hv ▸ y4
      · intro _; exact ⟨rs, zc, rb, zb, rfl, rfl, rfl, rfl⟩
      · intro n _; exact ⟨rfl, rfl, fun _ => ⟨z1 n, z2 n⟩⟩
      · intro m n _ _ _; exact ⟨rfl, rfl, fun _ => ⟨z3 m n, z4 m n⟩⟩
    · rw [if_neg same]
      simp only [e1, e2, e3, e4, f1, f2, f3, f4, Outcome.bind_ok, hl]
      refine ⟨_, rfl, ⟨hl ▸ rfl, rfl, rfl, ⟨hmp, hnt, s1, s2, ?_, ?_, t1, t2, ?_, ?_⟩, ?_, ?_, ?_⟩⟩
      · intro _ v hv; simp only [Option.some.injEq] at hv; exact hv ▸ s3
      · intro _ v hv; simp only [Option.some.injEq] at hv; exact hv ▸ s4
      · intro _ v hv; simp only [Option.some.injEq] at hv; exact hv ▸ t3
      · intro _ v hv; simp only [Option.some.injEq] at hv; exact hv ▸ t4
      · intro _; exact ⟨v3, v4, b3, b4, rfl, rfl, rfl, rfl⟩
      · intro n h
        refine ⟨by rw [c1, if_pos h], by rw [c2, if_pos h], fun _ => ⟨?_, ?_⟩⟩
        · rw [← z1]; simp only [axisCoeff?]; rw [c3, if_pos h]
        · rw [← z2]; simp only [axisCoeff?]; rw [c4, if_pos h]
      · intro m n h h' h''
        refine ⟨by rw [g1, if_pos ⟨h, h', h''⟩], by rw [g2, if_pos ⟨h, h', h''⟩], fun _ => ⟨?_, ?_⟩⟩
        · rw [← z3]; simp only [bdyCoeff?]; rw [g3, if_pos ⟨h, h', h''⟩]
        · rw [← z4]; simp only [bdyCoeff?]; rw [g4, if_pos ⟨h, h', h''⟩]
  · have hl' : d.lasym = false := by simpa using hl
    simp only [hl', Bool.false_eq_true, if_false, Outcome.bind_ok, Outcome.pure_eq]
    by_cases same : mp = d.mpol ∧ nt = d.ntor
    · rw [if_pos same]
      obtain ⟨rfl, rfl⟩ := same
      exact ⟨d, rfl, ⟨rfl, rfl, rfl, w, fun h => absurd h hl, fun n _ => ⟨rfl, rfl, fun h => absurd h hl⟩,
        fun m n _ _ _ => ⟨rfl, rfl, fun h => absurd h hl⟩⟩⟩
    · rw [if_neg same]
      simp only [e1, e2, f1, f2, Outcome.bind_ok, hl']
      refine ⟨_, rfl, ⟨hl' ▸ rfl, rfl, rfl, ⟨hmp, hnt, s1, s2, fun h => absurd h (by simp), fun h => absurd h (by simp), t1, t2, fun h => absurd h (by simp), fun h => absurd h (by simp)⟩,
        fun h => absurd h hl, ?_, ?_⟩⟩
      · intro n h
        exact ⟨by rw [c1, if_pos h], by rw [c2, if_pos h], fun h => absurd h hl⟩
      · intro m n h h' h''
        exact ⟨by rw [g1, if_pos ⟨h, h', h''⟩], by rw [g2, if_pos ⟨h, h', h''⟩], fun h => absurd h hl⟩

/-- unchanged resolution: nothing changes, except that absent asymmetric arrays get their zero default -/
theorem C25_identity (d : Indata α) (h : d.lasym = true →
      d.raxis_s.isSome ∧ d.zaxis_c.isSome ∧ d.rbs.isSome ∧ d.zbc.isSome) :
    setMpolNtor d d.mpol d.ntor = .ok d := by
  unfold setMpolNtor
  obtain ⟨lasym, mpol, ntor, a, b, c, e, f, g, i, j⟩ := d
  cases lasym
  · simp
  · obtain ⟨h1, h2, h3, h4⟩ := h rfl
    dsimp only at h1 h2 h3 h4
    obtain ⟨c, rfl⟩ := Option.isSome_iff_exists.mp h1
    obtain ⟨e, rfl⟩ := Option.isSome_iff_exists.mp h2
    obtain ⟨i, rfl⟩ := Option.isSome_iff_exists.mp h3
    obtain ⟨j, rfl⟩ := Option.isSome_iff_exists.mp h4
    simp [emplaceVec, emplaceMat]

/-- enlarging the resolution and shrinking it back gives every coefficient back -/
theorem C25_grow_and_shrink (d : Indata α) (w : WellShaped d) (mp nt : Int) (hmp : d.mpol ≤ mp) (hnt : d.ntor ≤ nt) :
    ∃ d1 d2, setMpolNtor d mp nt = .ok d1 ∧ setMpolNtor d1 d.mpol d.ntor = .ok d2 ∧ Resized d d2 d.mpol d.ntor := by
  have hm := w.mpol
  have hn := w.ntor
  obtain ⟨d1, e1, r1⟩ := C25_set_mpol_ntor d w mp nt (by omega) (by omega)
  obtain ⟨d2, e2, r2⟩ := C25_set_mpol_ntor d1 r1.shape d.mpol d.ntor hm hn
  refine ⟨d1, d2, e1, e2, ⟨r2.lasym.trans r1.lasym, r2.mpol, r2.ntor, r2.shape, ?_, ?_, ?_⟩⟩
  · intro h; exact r2.present (r1.lasym.trans h)
  · intro n h
    have a := r2.axis n h
    have b := r1.axis n (by omega)
    rw [r1.ntor] at a
    exact ⟨a.1.trans b.1, a.2.1.trans b.2.1, fun hl =>
      ⟨(a.2.2 (r1.lasym.trans hl)).1.trans (b.2.2 hl).1, (a.2.2 (r1.lasym.trans hl)).2.trans (b.2.2 hl).2⟩⟩
  · intro m n h h' h''
    have a := r2.boundary m n h h' h''
    have b := r1.boundary m n (by omega) (by omega) (by omega)
    rw [r1.ntor, r1.mpol] at a
    exact ⟨a.1.trans b.1, a.2.1.trans b.2.1, fun hl =>
      ⟨(a.2.2 (r1.lasym.trans hl)).1.trans (b.2.2 hl).1, (a.2.2 (r1.lasym.trans hl)).2.trans (b.2.2 hl).2⟩⟩

/-- The shape hypothesis is needed: an axis array that is too short (which the Python bindings allow) is
    read out of bounds. -/
theorem C25_short_axis_ub : ∃ (d : Indata Int), d.raxis_c.size = d.ntor ∧
    setMpolNtor d d.mpol (d.ntor + 1) = .ub "vector index out of bounds" :=
  ⟨⟨false, 2, 1, ⟨1, fun _ => 3⟩, ⟨2, fun _ => 0⟩, none, none, ⟨2, 3, fun _ _ => 1⟩, ⟨2, 3, fun _ _ => 1⟩, none, none⟩,
    rfl, by rfl⟩

/-! ## Python -/

/-- **`resize_2d_coeff`**: shape and coefficients, for every array with an odd number of columns -/
theorem C25_python_2d (coeff : Mat α) (ntor : Int) (hr : 0 ≤ coeff.rows) (hn : 0 ≤ ntor)
    (hc : coeff.cols = 2 * ntor + 1) (mp nt : Int) (hmp : 0 ≤ mp) (hnt : 0 ≤ nt) :
    ∃ v, pyResize2d coeff mp nt = .ok v ∧ BdyShape mp nt v ∧
      ∀ m n, m < mp → -nt ≤ n → n ≤ nt → bdyCoeff mp nt v m n = bdyCoeff coeff.rows ntor coeff m n := by
  obtain ⟨v, e, h1, h2⟩ := copyLoop coeff.rows ntor mp nt hr hn hmp hnt coeff ⟨rfl, hc⟩
  have hd : (coeff.cols - 1) / 2 = ntor := by omega
  refine ⟨v, ?_, h1, fun m n a b c => by rw [h2, if_pos ⟨a, b, c⟩]⟩
  unfold pyResize2d
  rw [if_neg (by simp; omega)]
  simp only [hd]
  rw [if_neg (by simp [hc])]
  simp only [Mat.zero]
  rw [if_pos (by omega)]
  simpa using e

/-- an array with an even number of columns is rejected, never resized -/
theorem C25_python_2d_rejects (coeff : Mat α) (hc : coeff.cols % 2 = 0) (mp nt : Int) :
    ∃ msg, pyResize2d coeff mp nt = .status msg := by
  unfold pyResize2d
  split
  · exact ⟨_, rfl⟩
  · simp only
    rw [if_pos (by omega)]
    exact ⟨_, rfl⟩

/-- **`resize_1d_axis_coeff`**: padding with zeros; nothing is ever dropped -/
theorem C25_python_1d (coeff : Vec α) (nt : Int) (hnt : 0 ≤ nt) :
    (coeff.size ≤ nt + 1 → ∃ v, pyResize1d coeff nt = .ok v ∧ AxisShape nt v ∧
      ∀ n, axisCoeff nt v n = axisCoeff (coeff.size - 1) coeff n) ∧
    (coeff.size > nt + 1 → ∃ msg, pyResize1d coeff nt = .status msg) := by
  unfold pyResize1d
  rw [if_neg (by simp; omega)]
  constructor
  · intro h
    rw [if_neg (by omega)]
    refine ⟨_, rfl, rfl, fun n => ?_⟩
    unfold axisCoeff
    dsimp only
    by_cases e : 0 ≤ n ∧ n ≤ nt
    · rw [if_pos e]
      by_cases e2 : 0 ≤ n ∧ n < coeff.size
      · rw [if_pos e2, if_pos (by omega)]
      · rw [if_neg e2, if_neg (by omega)]
    · rw [if_neg e, if_neg (by omega)]
  · intro h
    rw [if_pos h]
    exact ⟨_, rfl⟩

/-- after validation every boundary field has the requested shape -/
theorem C25_python_validated (x : Option (Mat α)) (hx : ∀ v, x = some v → 0 ≤ v.rows ∧ 1 ≤ v.cols) (mp nt : Int)
    (hmp : 0 ≤ mp) (hnt : 0 ≤ nt) (v : Mat α) (h : pyField2d x mp nt = .ok v) : BdyShape mp nt v := by
  unfold pyField2d at h
  cases x with
  | none =>
    simp only [Mat.zero] at h
    rw [if_pos (by omega)] at h
    injection h with h
    exact h ▸ ⟨rfl, rfl⟩
  | some w =>
    dsimp only at h
    split at h
    · rename_i hs
      injection h with h
      exact h ▸ hs
    · by_cases ho : w.cols = 2 * ((w.cols - 1) / 2) + 1
      · obtain ⟨v', e, hs, _⟩ := C25_python_2d w ((w.cols - 1) / 2) (hx w rfl).1
          (by have := (hx w rfl).2; omega) ho mp nt hmp hnt
        rw [e] at h
        injection h with h
        exact h ▸ hs
      · obtain ⟨msg, e⟩ := C25_python_2d_rejects w (by omega) mp nt
        rw [e] at h
        exact absurd h (by simp)

/-- a non-symmetric three-dimensional input meeting the hypotheses -/
example : ∃ d : Indata Int, WellShaped d ∧ d.lasym = true ∧ d.rbs = none ∧ d.raxis_c.val 1 = 7 ∧ d.mpol = 3 ∧ d.ntor = 1 :=
  ⟨⟨true, 3, 1, ⟨2, fun _ => 7⟩, ⟨2, fun _ => 5⟩, none, none, ⟨3, 3, fun m n => m + n⟩, ⟨3, 3, fun m n => m * n⟩, none, none⟩,
    ⟨by decide, by decide, rfl, rfl, by simp, by simp, ⟨rfl, rfl⟩, ⟨rfl, rfl⟩, by simp, by simp⟩, rfl, rfl, rfl, rfl, rfl⟩

end Verif.Resize
