import Verif.Contin.Lemmas
import Verif.Multigrid.Props

/-!
# Property C38 (continuation in Fourier resolution) and C56 (agreement with the solver's multigrid step)
-/
namespace Verif.Contin
open Verif Verif.Fourier Verif.HotRestart

/-! ## specification -/

/-- An output as the solver writes it: the modes are those of its resolution, the geometry has one row per
    mode and one column per surface, the axis one entry per toroidal mode. -/
structure WellFormed (w : Wout) : Prop where
  mpol : 1 ≤ w.mpol
  ntor : 0 ≤ w.ntor
  nfp : w.nfp ≠ 0
  ns : 2 ≤ w.ns
  modes : w.modes = stateModeTable w.mpol w.ntor w.nfp
  mnmax : w.mnmax = w.modes.length
  geometry : ∀ f ∈ w.geometry, ∀ v, f.2 = some v → v.rows = w.mnmax ∧ v.cols = w.ns
  axis : ∀ f ∈ w.axis, ∀ v, f.2 = some v → v.size = w.ntor + 1

/-- What it means that the array `v'` (modes `dst`, `nn` surfaces) carries the solution of the array `v`
    (modes `src`, `no` surfaces): a mode is the pair `(m, n * nfp)`, surface `j` of a grid of `ns` surfaces is
    at `s = j/(ns-1)`. -/
structure Carries (src dst : Table) (no nn : Int) (v v' : Verif.Mat ℝ) : Prop where
  rows : v'.rows = dst.length
  cols : v'.cols = nn
  /-- same radial grid: shared modes are copied -/
  same : no = nn → ∀ (i k : Nat) key, src[i]? = some key → dst[k]? = some key →
    ∀ j, 0 ≤ j → j < nn → v'.val k j = v.val i j
  /-- different radial grid: shared modes are kept on coinciding surfaces, in particular the boundary -/
  surfaces : ∀ (i k : Nat) key, src[i]? = some key → dst[k]? = some key →
    ∀ a b, 1 ≤ a → a < no → 1 ≤ b → b < nn → b * (no - 1) = a * (nn - 1) → v'.val k b = v.val i a
  /-- on the axis -/
  axis : ∀ (i k : Nat) key, src[i]? = some key → dst[k]? = some key →
    (key.1 % 2 = 0 → v'.val k 0 = v.val i 0) ∧ (key.1 % 2 = 1 → no ≠ nn → v'.val k 0 = 0)
  /-- even-m coefficients stay in the range of the old ones -/
  range : ∀ (i k : Nat) key, src[i]? = some key → dst[k]? = some key → key.1 % 2 = 0 →
    ∀ lo hi, (∀ a, 0 ≤ a → a < no → lo ≤ v.val i a ∧ v.val i a ≤ hi) →
    ∀ j, 0 ≤ j → j < nn → lo ≤ v'.val k j ∧ v'.val k j ≤ hi
  /-- modes that are new are zero -/
  fresh : ∀ (k : Nat) key, dst[k]? = some key → key ∉ src → ∀ j, 0 ≤ j → j < nn → v'.val k j = 0

/-- the same for an axis array -/
structure CarriesAxis (No Nn : Int) (v v' : Vec ℝ) : Prop where
  size : v'.size = Nn + 1
  shared : ∀ n, 0 ≤ n → n ≤ No → n ≤ Nn → v'.val n = v.val n
  fresh : ∀ n, No < n → n ≤ Nn → v'.val n = 0

/-- relation between optional arrays with a name: same name, present iff present -/
def Both {α β : Type} (R : α → β → Prop) (f : String × Option α) (f' : String × Option β) : Prop :=
  f'.1 = f.1 ∧ (f.2 = none ↔ f'.2 = none) ∧ ∀ v v', f.2 = some v → f'.2 = some v' → R v v'

/-- a target resolution that the solver accepts -/
structure Target (t : RunSpec) (ns : Int) : Prop where
  ns_array : t.ns_array = [ns]
  ns : 2 ≤ ns
  mpol : 1 ≤ t.mpol
  ntor : 0 ≤ t.ntor

/-! ## one row -/

theorem geomRow_zero {no nn m j : Int} (hno : 2 ≤ no) (hnn : 2 ≤ nn) (h0 : 0 ≤ j) (h1 : j < nn) :
    geomRow no nn m (fun _ => 0) j = 0 := by
  unfold geomRow
  have hr : (if m % 2 = 1 ∧ 3 ≤ no then upd (if m % 2 = 1 then fun i => (0 : ℝ) * scale no i else fun _ => 0) 0
      (2 * (if m % 2 = 1 then fun i => (0 : ℝ) * scale no i else fun _ => 0) 1 -
        (if m % 2 = 1 then fun i => (0 : ℝ) * scale no i else fun _ => 0) 2)
      else (if m % 2 = 1 then fun i => (0 : ℝ) * scale no i else fun _ => 0)) = fun _ => (0 : ℝ) := by
    have e : (if m % 2 = 1 then fun i => (0 : ℝ) * scale no i else fun _ => 0) = fun _ => (0 : ℝ) := by
      split <;> simp
    rw [e]
    split
    · funext i; unfold upd; split <;> simp
    · rfl
  dsimp only
  rw [hr]
  have key := npInterp_affine (n := no) (by omega) (fun i => Real.sqrt (linspace no i)) (fun _ => 0)
    (fun i k i0 ik _ => sqrt_lt hno i0 ik) 0 0 (Real.sqrt (linspace nn j)) (fun i _ _ => by simp)
    (by rw [linspace_zero]; simp [Real.sqrt_nonneg])
    (by rw [linspace_last hno]; exact Real.sqrt_le_sqrt (linspace_le_one hnn h1))
  rw [key]
  split
  · split <;> simp
  · simp

theorem linspace_eq {no nn a b : Int} (hno : 2 ≤ no) (hnn : 2 ≤ nn) (h : b * (no - 1) = a * (nn - 1)) :
    linspace nn b = linspace no a := by
  unfold linspace
  have h1 : (2 : ℝ) ≤ no := by exact_mod_cast hno
  have h2 : (2 : ℝ) ≤ nn := by exact_mod_cast hnn
  rw [div_eq_div_iff (by linarith) (by linarith)]
  exact_mod_cast h

theorem geomRow_surface {no nn m a b : Int} (hno : 2 ≤ no) (hnn : 2 ≤ nn) (row : Int → ℝ) (a0 : 1 ≤ a)
    (a1 : a < no) (b0 : 1 ≤ b) (h : b * (no - 1) = a * (nn - 1)) :
    geomRow no nn m row b = row a := by
  have hs := linspace_eq hno hnn h
  have hp : 0 < Real.sqrt (linspace no a) := by
    apply Real.sqrt_pos.2
    rw [← linspace_zero no]
    exact linspace_lt hno (by omega)
  unfold geomRow
  dsimp only
  rw [hs]
  have node := fun fp => npInterp_node (n := no) (by omega) (fun i => Real.sqrt (linspace no i)) fp
    (fun i k i0 ik _ => sqrt_lt hno i0 ik) (i := a) (by omega) a1
  rw [node]
  by_cases hm : m % 2 = 1
  · simp only [hm, if_true, true_and]
    rw [if_neg (by omega), scale_eq b0, hs]
    split
    · rw [upd_ne _ _ (by omega), scale_eq a0]
      field_simp
    · beta_reduce
      rw [scale_eq a0]
      field_simp
  · simp only [hm, if_false, false_and]

theorem geomRow_axis {no nn m : Int} (hno : 2 ≤ no) (row : Int → ℝ) :
    geomRow no nn m row 0 = if m % 2 = 1 then 0 else row 0 := by
  unfold geomRow
  dsimp only
  by_cases hm : m % 2 = 1
  · simp only [hm, if_true]
  · simp only [hm, if_false, false_and]
    have node := npInterp_node (n := no) (by omega) (fun i => Real.sqrt (linspace no i)) row
      (fun i k i0 ik _ => sqrt_lt hno i0 ik) (i := 0) (by omega) (by omega)
    rw [linspace_zero] at node ⊢
    exact node

theorem geomRow_range {no nn m j : Int} (hno : 2 ≤ no) (row : Int → ℝ) (hm : m % 2 = 0)
    (lo hi : ℝ) (h : ∀ a, 0 ≤ a → a < no → lo ≤ row a ∧ row a ≤ hi) :
    lo ≤ geomRow no nn m row j ∧ geomRow no nn m row j ≤ hi := by
  unfold geomRow
  dsimp only
  have hm' : ¬ m % 2 = 1 := by omega
  simp only [hm', if_false, false_and]
  exact npInterp_range (n := no) (by omega) _ row (fun i k i0 ik _ => sqrt_lt hno i0 ik) _ lo hi
    (by rw [linspace_zero]; simp [Real.sqrt_nonneg]) h

theorem field_ok {src dst : Table} {nn : Int} (hsrc : src.Nodup) (hnn : 2 ≤ nn) (name : String)
    (v : Verif.Mat ℝ) (hv : v.rows = src.length) (hc : 2 ≤ v.cols) :
    ∃ v', geometryField src dst nn (name, some v) = .ok (name, some v') ∧ Carries src dst v.cols nn v v' := by
  obtain ⟨out, e, h1, h2, h3⟩ := remapModes_ok v src dst (by omega)
  unfold geometryField
  dsimp only
  rw [e, Outcome.bind_ok]
  unfold radialInterpolateGeometry
  dsimp only
  have hshared : ∀ (i k : Nat) key, src[i]? = some key → dst[k]? = some key → out.val k = v.val i := by
    intro i k key hi hk
    rw [h3 k key hk]
    unfold rowFor
    rw [srcIndex_of_get hsrc hi]
  have hfresh : ∀ (k : Nat) key, dst[k]? = some key → key ∉ src → out.val k = fun _ => 0 := by
    intro k key hk hn
    rw [h3 k key hk]
    unfold rowFor
    rw [(srcIndex_none src key).2 hn]
  by_cases hns : out.cols = nn
  · rw [if_pos hns, Outcome.bind_ok]
    rw [h2] at hns
    refine ⟨out, rfl, h1, h2.trans hns, ?_, ?_, ?_, ?_, ?_⟩
    · intro _ i k key hi hk j _ _
      rw [hshared i k key hi hk]
    · intro i k key hi hk a b a0 a1 b0 b1 hab
      rw [hshared i k key hi hk]
      rw [hns] at hab
      rw [Int.eq_of_mul_eq_mul_right (by omega) hab]
    · intro i k key hi hk
      exact ⟨fun _ => by rw [hshared i k key hi hk], fun _ h => absurd hns h⟩
    · intro i k key hi hk _ lo hi' hb j j0 j1
      rw [hshared i k key hi hk]
      exact hb j j0 (by omega)
    · intro k key hk hn j _ _
      rw [hfresh k key hk hn]
  · rw [if_neg hns, if_neg (by omega), Outcome.bind_ok]
    rw [h2] at hns
    have hm : ∀ (k : Nat) key, dst[k]? = some key → (dst.getD ((k : Int)).toNat (0, 0)).1 = key.1 := by
      intro k key hk
      simp [List.getD, hk]
    refine ⟨_, rfl, h1, rfl, fun h => absurd h hns, ?_, ?_, ?_, ?_⟩
    · intro i k key hi hk a b a0 a1 b0 b1 hab
      dsimp only
      rw [hshared i k key hi hk, h2, hm k key hk]
      exact geomRow_surface hc hnn _ a0 a1 b0 hab
    · intro i k key hi hk
      dsimp only
      rw [hshared i k key hi hk, h2, hm k key hk, geomRow_axis hc]
      exact ⟨fun h => by rw [if_neg (by omega)], fun h _ => by rw [if_pos h]⟩
    · intro i k key hi hk he lo hi' hb j j0 j1
      dsimp only
      rw [hshared i k key hi hk, h2, hm k key hk]
      exact geomRow_range hc _ he lo hi' hb
    · intro k key hk hn j j0 j1
      dsimp only
      rw [hfresh k key hk hn, h2]
      exact geomRow_zero hc hnn j0 j1

theorem remapAxis_ok (v : Vec ℝ) (No Nn : Int) (hv : v.size = No + 1) (hNo : 0 ≤ No) (hNn : 0 ≤ Nn) :
    CarriesAxis No Nn v (remapAxis v Nn) := by
  have hl : sliceLen v.size (Nn + 1) = min (No + 1) (Nn + 1) := by
    unfold sliceLen; rw [if_pos (by omega), hv]
  refine ⟨?_, ?_, ?_⟩
  · unfold remapAxis; dsimp only; rw [hl]; omega
  · intro n n0 n1 n2
    unfold remapAxis; dsimp only; rw [hl, if_pos (by omega)]
  · intro n n1 n2
    unfold remapAxis; dsimp only; rw [hl, if_neg (by omega)]

/-! ## C38 -/

/-- **C38.** Interpolating a solution to the resolution of the next step succeeds; the result claims to belong
    to the target input, so the solver's restart check accepts it; it is well formed at exactly the target
    resolution; and every geometry and axis array carries the solution: shared modes are kept, new modes are
    zero. -/
theorem C38_carries_solution (source : Output) (target : RunSpec) (ns : Int) (hw : WellFormed source.wout)
    (ht : Target target ns) :
    ∃ o, interpolateSolution source target = .ok o ∧
      checkInitialState o.input target = .ok () ∧
      WellFormed o.wout ∧ o.wout.ns = ns ∧ o.wout.mpol = target.mpol ∧ o.wout.ntor = target.ntor ∧
      o.wout.nfp = source.wout.nfp ∧
      List.Forall₂ (Both (Carries source.wout.modes o.wout.modes source.wout.ns ns))
        source.wout.geometry o.wout.geometry ∧
      List.Forall₂ (Both (CarriesAxis source.wout.ntor target.ntor)) source.wout.axis o.wout.axis := by
  have hnd : source.wout.modes.Nodup := by
    rw [hw.modes]; exact table_nodup _ _ _ hw.mpol hw.ntor hw.nfp
  have hfield : ∀ f ∈ source.wout.geometry, ∃ f', geometryField source.wout.modes
      (stateModeTable target.mpol target.ntor source.wout.nfp) ns f = .ok f' ∧
      Both (Carries source.wout.modes (stateModeTable target.mpol target.ntor source.wout.nfp)
        source.wout.ns ns) f f' := by
    rintro ⟨name, x⟩ hf
    cases x with
    | none => exact ⟨_, rfl, rfl, by simp, fun v v' h => by simp at h⟩
    | some v =>
      obtain ⟨s1, s2⟩ := hw.geometry _ hf v rfl
      obtain ⟨v', e, c⟩ := field_ok (dst := stateModeTable target.mpol target.ntor source.wout.nfp) hnd ht.ns name v
        (by rw [s1, hw.mnmax]) (by rw [s2]; exact hw.ns)
      refine ⟨_, e, rfl, by simp, ?_⟩
      intro u u' h h'
      cases h
      cases h'
      rw [s2] at c
      exact c
  obtain ⟨g', eg, fg⟩ := mapM_ok _ source.wout.geometry (fun f hf => (hfield f hf).imp (fun _ h => h.1))
  have fg' : List.Forall₂ (Both (Carries source.wout.modes
      (stateModeTable target.mpol target.ntor source.wout.nfp) source.wout.ns ns)) source.wout.geometry g' := by
    rw [List.forall₂_iff_get] at fg ⊢
    refine ⟨fg.1, fun i h h' => ?_⟩
    obtain ⟨f', e, b⟩ := hfield (source.wout.geometry.get ⟨i, h⟩) (List.get_mem _ _)
    have := fg.2 i h h'
    rw [e] at this
    cases this
    exact b
  have fa : List.Forall₂ (Both (CarriesAxis source.wout.ntor target.ntor)) source.wout.axis
      (source.wout.axis.map (fun f => (f.1, f.2.map (fun v => remapAxis v target.ntor)))) := by
    rw [List.forall₂_map_right_iff, List.forall₂_same]
    rintro ⟨name, x⟩ hf
    refine ⟨rfl, by cases x <;> simp, ?_⟩
    intro v v' h h'
    cases x with
    | none => cases h
    | some u =>
      cases h
      cases h'
      exact remapAxis_ok v _ _ (hw.axis _ hf v rfl) hw.ntor ht.ntor
  unfold interpolateSolution
  dsimp only
  rw [show target.ns_array.getLast? = some ns by rw [ht.ns_array]; rfl]
  dsimp only
  rw [eg, Outcome.bind_ok]
  refine ⟨_, rfl, ?_, ⟨ht.mpol, ht.ntor, hw.nfp, ht.ns, rfl, rfl, ?_, ?_⟩, rfl, rfl, rfl, rfl, fg', fa⟩
  · simp [checkInitialState, ht.ns_array]
  · intro f' hf' v' e
    dsimp only at hf' ⊢
    obtain ⟨i, hi, ei⟩ := List.mem_iff_getElem.1 hf'
    rw [List.forall₂_iff_get] at fg'
    have hb := fg'.2 i (by rw [fg'.1]; exact hi) hi
    simp only [List.get_eq_getElem] at hb
    rw [ei] at hb
    obtain ⟨-, b2, b3⟩ := hb
    cases hx : source.wout.geometry[i]'(by rw [fg'.1]; exact hi) |>.2 with
    | none => rw [b2.1 hx] at e; cases e
    | some v =>
      have c := b3 v v' hx e
      exact ⟨c.rows, c.cols⟩
  · intro f' hf' v' e
    dsimp only at hf' ⊢
    obtain ⟨f, hf, rfl⟩ := List.mem_map.1 hf'
    cases hx : f.2 with
    | none => rw [hx] at e; cases e
    | some v =>
      rw [hx] at e
      cases e
      exact (remapAxis_ok v _ _ (hw.axis f hf v hx) hw.ntor ht.ntor).size

/-- **C38 (which modes are shared).** The modes of a state of resolution `(M, N)` are the pairs `(m, n)` with
    `0 ≤ m < M`, `|n| ≤ N` and `n ≥ 0` if `m = 0`, each once; the modes shared by two resolutions are those of
    the smaller resolution in each direction. -/
theorem C38_shared_modes (M N M' N' nfp m n : Int) (hM : 1 ≤ M) (hN : 0 ≤ N) (hM' : 1 ≤ M') (hN' : 0 ≤ N')
    (hf : nfp ≠ 0) :
    (stateModeTable M N nfp).Nodup ∧
    ((m, n * nfp) ∈ stateModeTable M N nfp ∧ (m, n * nfp) ∈ stateModeTable M' N' nfp ↔
      (0 ≤ m ∧ m < min M M') ∧ (-min N N' ≤ n ∧ n ≤ min N N') ∧ (m = 0 → 0 ≤ n)) := by
  refine ⟨table_nodup M N nfp hM hN hf, ?_⟩
  rw [mem_table M N nfp hM hN hf, mem_table M' N' nfp hM' hN' hf]
  unfold validMode
  have e : -min N N' ≤ n ↔ -N ≤ n ∧ -N' ≤ n := by
    rcases le_total N N' with h | h
    · rw [min_eq_left h]; omega
    · rw [min_eq_right h]; omega
  rw [e]
  by_cases h0 : m = 0
  · subst h0; simp only [if_true, forall_true_left]; omega
  · simp only [h0, if_false, false_imp_iff, and_true]; omega

/-- **C38 (round trip).** Going to a resolution that is at least as fine in both angles on the same radial
    grid, and back, returns every coefficient. -/
theorem C38_roundtrip (source : Output) (up down : RunSpec) (hw : WellFormed source.wout)
    (hup : Target up source.wout.ns) (hdown : Target down source.wout.ns)
    (hM : source.wout.mpol ≤ up.mpol) (hN : source.wout.ntor ≤ up.ntor)
    (hM' : down.mpol = source.wout.mpol) (hN' : down.ntor = source.wout.ntor) :
    ∃ o o', interpolateSolution source up = .ok o ∧ interpolateSolution o down = .ok o' ∧
      List.Forall₂ (Both (fun v v' => v'.rows = v.rows ∧ v'.cols = v.cols ∧
        ∀ i j, (0 ≤ i ∧ i < v.rows) → (0 ≤ j ∧ j < v.cols) → v'.val i j = v.val i j))
        source.wout.geometry o'.wout.geometry ∧
      List.Forall₂ (Both (fun v v' => v'.size = v.size ∧ ∀ n, (0 ≤ n ∧ n < v.size) → v'.val n = v.val n))
        source.wout.axis o'.wout.axis := by
  obtain ⟨o, e, -, w, n1, n2, n3, n4, g, a⟩ := C38_carries_solution source up _ hw hup
  obtain ⟨o', e', -, w', n1', n2', n3', n4', g', a'⟩ := C38_carries_solution o down _ w hdown
  rw [n1] at g'
  rw [n3] at a'
  refine ⟨o, o', e, e', ?_, ?_⟩
  · rw [List.forall₂_iff_get] at g g' ⊢
    refine ⟨g.1.trans g'.1, fun i hi hi' => ?_⟩
    have h1 := g.2 i hi (by rw [← g.1]; exact hi)
    have h2 := g'.2 i (by rw [← g.1]; exact hi) hi'
    refine ⟨h2.1.trans h1.1, h1.2.1.trans h2.2.1, ?_⟩
    intro v v'' ev ev''
    cases em : (o.wout.geometry.get ⟨i, by rw [← g.1]; exact hi⟩).2 with
    | none => rw [h1.2.1.2 em] at ev; cases ev
    | some v' =>
      have c1 := h1.2.2 v v' ev em
      have c2 := h2.2.2 v' v'' em ev''
      obtain ⟨s1, s2⟩ := hw.geometry _ (List.get_mem _ ⟨i, hi⟩) v ev
      have hmodes : o'.wout.modes = source.wout.modes := by
        rw [w'.modes, hw.modes, n2', n3', n4', n4, hM', hN']
      refine ⟨?_, c2.cols.trans s2.symm, ?_⟩
      · rw [c2.rows, s1, hw.mnmax, hmodes]
      · intro k j hk hj
        rw [s1, hw.mnmax] at hk
        obtain ⟨key, hkey⟩ : ∃ key, source.wout.modes[k.toNat]? = some key :=
          ⟨_, List.getElem?_eq_getElem (show k.toNat < _ by omega)⟩
        have hmem : key ∈ o.wout.modes := by
          have := List.mem_of_getElem? hkey
          rw [hw.modes] at this
          obtain ⟨m, n, rfl⟩ : ∃ m n, key = (m, n * source.wout.nfp) := by
            have h3 := this
            unfold stateModeTable at h3
            simp only [List.mem_flatMap, List.mem_map] at h3
            obtain ⟨m, -, n, -, h4⟩ := h3
            exact ⟨m, n, h4.symm⟩
          rw [mem_table _ _ _ hw.mpol hw.ntor hw.nfp] at this
          rw [w.modes, n2, n3, n4, mem_table _ _ _ hup.mpol hup.ntor hw.nfp]
          obtain ⟨q1, q2, q3, q4⟩ := this
          refine ⟨q1, by omega, by omega, ?_⟩
          split at q4 <;> simp_all
          omega
        obtain ⟨l, hl⟩ := List.getElem?_of_mem hmem
        have r1 := c1.same rfl k.toNat l key hkey hl j hj.1 (by omega)
        have r2 := c2.same rfl l k.toNat key hl (by rw [hmodes]; exact hkey) j hj.1 (by omega)
        have hk' : ((k.toNat : Nat) : Int) = k := by omega
        rw [hk'] at r1 r2
        rw [r2, r1]
  · rw [List.forall₂_iff_get] at a a' ⊢
    refine ⟨a.1.trans a'.1, fun i hi hi' => ?_⟩
    have h1 := a.2 i hi (by rw [← a.1]; exact hi)
    have h2 := a'.2 i (by rw [← a.1]; exact hi) hi'
    refine ⟨h2.1.trans h1.1, h1.2.1.trans h2.2.1, ?_⟩
    intro v v'' ev ev''
    cases em : (o.wout.axis.get ⟨i, by rw [← a.1]; exact hi⟩).2 with
    | none => rw [h1.2.1.2 em] at ev; cases ev
    | some v' =>
      have c1 := h1.2.2 v v' ev em
      have c2 := h2.2.2 v' v'' em ev''
      have s1 := hw.axis _ (List.get_mem _ ⟨i, hi⟩) v ev
      refine ⟨by rw [c2.size, s1, hN'], fun n hn => ?_⟩
      rw [c2.shared n hn.1 (by omega) (by omega), c1.shared n hn.1 (by omega) (by omega)]

/-! ### the driver -/

/-- what the solver needs of an initial guess: it passes the restart check and has the shapes of the step -/
def Acceptable (base : RunSpec) (s : Step) (guess : Option Output) : Prop :=
  ∀ g, guess = some g → checkInitialState g.input (stepSpec base s) = .ok () ∧ WellFormed g.wout ∧
    g.wout.ns = s.ns ∧ g.wout.mpol = s.mpol ∧ g.wout.ntor = s.ntor

/-- what the solver returns: an output of the resolution of the step -/
def Produced (s : Step) (o : Output) : Prop :=
  WellFormed o.wout ∧ o.wout.ns = s.ns ∧ o.wout.mpol = s.mpol ∧ o.wout.ntor = s.ntor

/-- a step with a resolution the solver accepts -/
def Step.Ok (s : Step) : Prop := 2 ≤ s.ns ∧ 1 ≤ s.mpol ∧ 0 ≤ s.ntor

/-- **C38 (driver).** For a solver that succeeds on every acceptable initial guess (and may do anything on
    others) the continuation succeeds, whatever the schedule: every guess it passes on is acceptable. The
    result has the resolution of the last step. -/
theorem C38_driver (run : RunSpec → Step → Option Output → Outcome Output) (base : RunSpec)
    (hrun : ∀ s guess, s.Ok → Acceptable base s guess → ∃ o, run (stepSpec base s) s guess = .ok o ∧ Produced s o)
    (steps : List Step) (hs : ∀ s ∈ steps, s.Ok) (start : Option Output)
    (h0 : ∀ o, start = some o → WellFormed o.wout) :
    ∃ out, runSteps run base steps start = .ok out ∧
      ∀ s, steps.getLast? = some s → ∃ o, out = some o ∧ Produced s o := by
  induction steps generalizing start with
  | nil => exact ⟨start, rfl, fun s h => by simp at h⟩
  | cons s rest ih =>
    have hsok := hs s (by simp)
    have hg : ∃ guess, guessFor (stepSpec base s) start = .ok guess ∧
        Acceptable base s guess := by
      cases start with
      | none => exact ⟨none, rfl, fun g h => by cases h⟩
      | some o =>
        obtain ⟨g, e, c, w, n1, n2, n3, -⟩ := C38_carries_solution o (stepSpec base s) s.ns (h0 o rfl)
          ⟨rfl, hsok.1, hsok.2.1, hsok.2.2⟩
        refine ⟨some g, by unfold guessFor; dsimp only; rw [e]; rfl, ?_⟩
        intro g' h'
        cases h'
        exact ⟨c, w, n1, n2, n3⟩
    obtain ⟨guess, eg, ha⟩ := hg
    obtain ⟨o, eo, ho⟩ := hrun s guess hsok ha
    obtain ⟨out, e, hl⟩ := ih (fun s' h' => hs s' (by simp [h'])) (some o) (fun o' h' => by cases h'; exact ho.1)
    refine ⟨out, ?_, ?_⟩
    · unfold runSteps
      rw [eg, Outcome.bind_ok, eo, Outcome.bind_ok, e]
    · intro s' hs'
      cases rest with
      | nil =>
        simp at hs'
        subst hs'
        unfold runSteps at e
        cases e
        exact ⟨o, rfl, ho⟩
      | cons a l => exact hl s' (by rwa [List.getLast?_cons_cons] at hs')

/-- value of a schedule in step `i` -/
def Sched.at (s : Sched) (i : Nat) : Option Int :=
  match s with
  | .scalar v => some v
  | .list l => l[i]?

/-- **C38 (schedule).** A per-step list whose length differs from that of `ns_array` is rejected; otherwise
    there is one step per entry of `ns_array`, with the values at that position (a scalar is repeated). -/
theorem C38_schedule (ns : List Int) (mpol ntor : Sched) (ftol : List ℝ) (niter : List Int)
    (hf : ns.length ≤ ftol.length) (hi : ns.length ≤ niter.length) :
    ((∃ l, mpol = .list l ∧ l.length ≠ ns.length) ∨ (∃ l, ntor = .list l ∧ l.length ≠ ns.length) →
      schedule ns mpol ntor ftol niter = .status "ValueError") ∧
    ((∀ l, mpol = .list l → l.length = ns.length) ∧ (∀ l, ntor = .list l → l.length = ns.length) →
      ∃ steps, schedule ns mpol ntor ftol niter = .ok steps ∧ steps.length = ns.length ∧
        ∀ i s, steps[i]? = some s → ns[i]? = some s.ns ∧ mpol.at i = some s.mpol ∧ ntor.at i = some s.ntor ∧
          ftol[i]? = some s.ftol ∧ niter[i]? = some s.niter) := by
  constructor
  · intro h
    unfold schedule
    have bad : ∀ l : List Int, l.length ≠ ns.length → resolve ns.length (.list l) = .status "ValueError" := by
      intro l hl; simp [resolve, hl]
    by_cases hm : ∃ l, mpol = .list l ∧ l.length ≠ ns.length
    · obtain ⟨l, rfl, hl⟩ := hm
      rw [bad l hl]; rfl
    · have : ∃ mp, resolve ns.length mpol = .ok mp := by
        cases mpol with
        | scalar v => exact ⟨_, rfl⟩
        | list l =>
          have : l.length = ns.length := by
            by_contra hne; exact hm ⟨l, rfl, hne⟩
          exact ⟨l, by simp [resolve, this]⟩
      obtain ⟨mp, e⟩ := this
      obtain ⟨l, rfl, hl⟩ := h.resolve_left hm
      rw [e, Outcome.bind_ok, bad l hl]; rfl
  · rintro ⟨h1, h2⟩
    have good : ∀ s : Sched, (∀ l, s = .list l → l.length = ns.length) → ∃ l, resolve ns.length s = .ok l ∧
        l.length = ns.length ∧ ∀ i, i < ns.length → l[i]? = s.at i := by
      intro s hs
      cases s with
      | scalar v =>
        refine ⟨_, rfl, by simp, fun i hi => ?_⟩
        simp [Sched.at, hi]
      | list l => exact ⟨l, by simp [resolve, hs l rfl], hs l rfl, fun i _ => rfl⟩
    obtain ⟨mp, e1, l1, g1⟩ := good mpol h1
    obtain ⟨nt, e2, l2, g2⟩ := good ntor h2
    have get : ∀ {α : Type} (l : List α) (i : Nat) (h : i < l.length), pyGet l i = .ok l[i] := by
      intro α l i h; unfold pyGet; rw [List.getElem?_eq_getElem h]
    unfold schedule
    rw [e1, Outcome.bind_ok, e2, Outcome.bind_ok]
    obtain ⟨steps, e, f⟩ := mapM_ok (fun i => do
        let a ← pyGet ns i
        let b ← pyGet mp i
        let c ← pyGet nt i
        let d ← pyGet ftol i
        let e ← pyGet niter i
        Outcome.ok (⟨a, b, c, d, e⟩ : Step)) (List.range ns.length) (by
      intro i hi'
      have hlt := List.mem_range.1 hi'
      rw [get ns i hlt, get mp i (by omega), get nt i (by omega), get ftol i (by omega), get niter i (by omega)]
      exact ⟨_, rfl⟩)
    rw [List.forall₂_iff_get] at f
    refine ⟨steps, e, by rw [← f.1]; simp, ?_⟩
    intro i s hs
    have hlt : i < steps.length := by
      by_contra hge
      rw [List.getElem?_eq_none (by omega)] at hs
      cases hs
    have hlt' : i < ns.length := by have := f.1; simp at this; omega
    have := f.2 i (by simpa using hlt') hlt
    simp only [List.get_eq_getElem, List.getElem_range] at this
    rw [get ns i hlt', get mp i (by omega), get nt i (by omega), get ftol i (by omega), get niter i (by omega)] at this
    simp only [Outcome.bind_ok] at this
    rw [List.getElem?_eq_getElem hlt] at hs
    simp only [Option.some.injEq] at hs
    rw [hs] at this
    cases this
    rw [← g1 i hlt', ← g2 i hlt']
    simp [List.getElem?_eq_getElem, hlt', l1, l2, show i < ftol.length by omega, show i < niter.length by omega]

/-! ### what is not checked -/

/-- **The number of field periods and stellarator symmetry of the target are not compared with the source**
    (the documentation says `nfp` must match): the interpolated solution passes the restart check whatever the
    target says, because it simply claims to belong to the target. -/
theorem C38_nfp_and_lasym_not_checked (source : Output) (target : RunSpec) (ns nfp : Int) (lasym : Bool)
    (hw : WellFormed source.wout) (ht : Target target ns) :
    ∃ o, interpolateSolution source { target with nfp := nfp, lasym := lasym } = .ok o ∧
      checkInitialState o.input { target with nfp := nfp, lasym := lasym } = .ok () ∧
      o.input.nfp = nfp ∧ o.input.lasym = lasym ∧ o.wout.nfp = source.wout.nfp ∧
      ∀ o', interpolateSolution source target = .ok o' → o.wout = o'.wout := by
  obtain ⟨o, e, c, -, -, -, -, n, -⟩ := C38_carries_solution source { target with nfp := nfp, lasym := lasym } ns hw
    ⟨ht.ns_array, ht.ns, ht.mpol, ht.ntor⟩
  refine ⟨o, e, c, ?_, ?_, n, ?_⟩ <;> clear c n
  all_goals
    unfold interpolateSolution at e
    dsimp only at e
    rw [show target.ns_array.getLast? = some ns by rw [ht.ns_array]; rfl] at e
    dsimp only at e
  · cases hx : List.mapM (geometryField source.wout.modes
      (stateModeTable target.mpol target.ntor source.wout.nfp) ns) source.wout.geometry with
    | ok g => rw [hx, Outcome.bind_ok] at e; cases e; rfl
    | _ => rw [hx] at e; cases e
  · cases hx : List.mapM (geometryField source.wout.modes
      (stateModeTable target.mpol target.ntor source.wout.nfp) ns) source.wout.geometry with
    | ok g => rw [hx, Outcome.bind_ok] at e; cases e; rfl
    | _ => rw [hx] at e; cases e
  · intro o' e'
    unfold interpolateSolution at e'
    dsimp only at e'
    rw [show target.ns_array.getLast? = some ns by rw [ht.ns_array]; rfl] at e'
    dsimp only at e'
    cases hx : List.mapM (geometryField source.wout.modes
      (stateModeTable target.mpol target.ntor source.wout.nfp) ns) source.wout.geometry with
    | ok g =>
      rw [hx, Outcome.bind_ok] at e e'
      cases e
      cases e'
      rfl
    | _ => rw [hx] at e; cases e

/-- **Any one-dimensional array whose length happens to be `ns` is resampled**, for example the coil
    currents: afterwards it has the length of the new radial grid. -/
theorem C38_unrelated_arrays_resampled (source o : Output) (target : RunSpec) (ns : Int) (name : String) (v : Vec ℝ)
    (ht : Target target ns) (hv : (name, v) ∈ source.wout.other) (hs : v.size = source.wout.ns) (hp : 0 < v.size)
    (e : interpolateSolution source target = .ok o) :
    ∃ v', (name, v') ∈ o.wout.other ∧ v'.size = ns := by
  unfold interpolateSolution at e
  dsimp only at e
  rw [show target.ns_array.getLast? = some ns by rw [ht.ns_array]; rfl] at e
  dsimp only at e
  cases hx : List.mapM (geometryField source.wout.modes
      (stateModeTable target.mpol target.ntor source.wout.nfp) ns) source.wout.geometry with
  | ok g =>
    rw [hx, Outcome.bind_ok] at e
    cases e
    refine ⟨radialInterpolate v ns, List.mem_map.2 ⟨_, hv, ?_⟩, ?_⟩
    · dsimp only
      rw [if_pos ⟨by omega, hs⟩]
    · unfold radialInterpolate
      split
      · assumption
      · rfl
  | _ => rw [hx] at e; cases e

end Verif.Contin
