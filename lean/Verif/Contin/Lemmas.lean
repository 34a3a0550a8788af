import Verif.Contin.Model
import Verif.Fourier.Props
import Mathlib.Tactic.FieldSimp
import Mathlib.Data.List.Forall2

namespace Verif.Contin
open Verif Verif.Fourier Verif.HotRestart

/-! ## tables -/

theorem srcIndex_append (l : Table) (a key : Int × Int) :
    srcIndex (l ++ [a]) key = if a = key then some (l.length : Int) else srcIndex l key := by
  unfold srcIndex
  rw [List.zipIdx_append, List.foldl_append]
  simp

theorem srcIndex_none (l : Table) (key : Int × Int) : srcIndex l key = none ↔ key ∉ l := by
  induction l using List.reverseRecOn with
  | nil => simp [srcIndex]
  | append_singleton l a ih =>
    rw [srcIndex_append]
    by_cases h : a = key
    · simp [h]
    · rw [if_neg h, ih]
      simp [Ne.symm h]

theorem srcIndex_some (l : Table) (key : Int × Int) (j : Int) (h : srcIndex l key = some j) :
    0 ≤ j ∧ l[j.toNat]? = some key := by
  induction l using List.reverseRecOn with
  | nil => simp [srcIndex] at h
  | append_singleton l a ih =>
    rw [srcIndex_append] at h
    by_cases hk : a = key
    · rw [if_pos hk] at h
      cases h
      refine ⟨by omega, ?_⟩
      simp [hk]
    · rw [if_neg hk] at h
      obtain ⟨h0, h1⟩ := ih h
      refine ⟨h0, ?_⟩
      have hlt : j.toNat < l.length := by
        by_contra hge
        rw [List.getElem?_eq_none (by omega)] at h1
        cases h1
      rw [List.getElem?_append_left hlt]
      exact h1

theorem srcIndex_of_get {l : Table} (hl : l.Nodup) {key : Int × Int} {i : Nat} (h : l[i]? = some key) :
    srcIndex l key = some (i : Int) := by
  cases hs : srcIndex l key with
  | none => exact absurd (List.mem_of_getElem? h) ((srcIndex_none l key).1 hs)
  | some j =>
    obtain ⟨h0, h1⟩ := srcIndex_some l key j hs
    have hi : i < l.length := by
      by_contra hge
      rw [List.getElem?_eq_none (by omega)] at h
      cases h
    have := (List.getElem?_inj hi hl).1 (h.trans h1.symm)
    congr 1
    omega

/-- row of the result for a mode `key` -/
noncomputable def rowFor (values : Verif.Mat ℝ) (src : Table) (key : Int × Int) : Int → ℝ :=
  match srcIndex src key with
  | none => fun _ => 0
  | some j => values.val j

theorem remap_fold (values : Verif.Mat ℝ) (src : Table) (hv : (src.length : Int) ≤ values.rows)
    (R C : Int) (dst : Table) :
    ∃ out, dst.zipIdx.foldlM (remapStep values src) (⟨R, C, fun _ _ => 0⟩ : Verif.Mat ℝ) = Outcome.ok out ∧
      out.rows = R ∧ out.cols = C ∧
      (∀ (i : Nat) key, dst[i]? = some key → out.val i = rowFor values src key) ∧
      (∀ i : Int, (dst.length : Int) ≤ i → out.val i = fun _ => 0) := by
  induction dst using List.reverseRecOn with
  | nil => exact ⟨_, rfl, rfl, rfl, by simp, fun _ _ => rfl⟩
  | append_singleton l a ih =>
    obtain ⟨out, e, h1, h2, h3, h4⟩ := ih
    have hz : (l ++ [a]).zipIdx = l.zipIdx ++ [(a, l.length)] := by
      rw [List.zipIdx_append]; simp
    have hstep : ∃ out', remapStep values src out (a, l.length) = .ok out' ∧ out'.rows = R ∧ out'.cols = C ∧
        out'.val (l.length : Int) = rowFor values src a ∧ ∀ i : Int, i ≠ l.length → out'.val i = out.val i := by
      unfold remapStep rowFor
      cases hs : srcIndex src a with
      | none => exact ⟨out, by simp [hs], h1, h2, h4 _ (le_refl _), fun _ _ => rfl⟩
      | some j =>
        have hj : j < values.rows := by
          obtain ⟨j0, j1⟩ := srcIndex_some _ _ _ hs
          have : j.toNat < src.length := by
            by_contra hge
            rw [List.getElem?_eq_none (by omega)] at j1
            cases j1
          omega
        refine ⟨{ out with val := upd out.val (l.length : Int) (values.val j) }, by simp [hs, hj], h1, h2,
          by simp [upd], fun i hi => ?_⟩
        exact upd_ne _ _ hi
    obtain ⟨out', e', k1, k2, k3, k4⟩ := hstep
    refine ⟨out', ?_, k1, k2, ?_, ?_⟩
    · rw [hz, List.foldlM_append, e, Outcome.bind_ok]
      simp only [List.foldlM_cons, List.foldlM_nil]
      rw [e', Outcome.bind_ok]; rfl
    · intro i key hi
      by_cases hl : i = l.length
      · subst hl
        simp at hi
        rw [k3, hi]
      · have hlt : i < l.length := by
          by_contra hge
          rw [List.getElem?_eq_none (by simp; omega)] at hi
          cases hi
        rw [List.getElem?_append_left hlt] at hi
        rw [k4 _ (by omega)]
        exact h3 i key hi
    · intro i hi
      simp at hi
      rw [k4 _ (by omega)]
      exact h4 i (by omega)

theorem remapModes_ok (values : Verif.Mat ℝ) (src dst : Table) (hv : (src.length : Int) ≤ values.rows) :
    ∃ out, remapModes values src dst = .ok out ∧ out.rows = dst.length ∧ out.cols = values.cols ∧
      ∀ (i : Nat) key, dst[i]? = some key → out.val i = rowFor values src key := by
  obtain ⟨out, e, h1, h2, h3, -⟩ := remap_fold values src hv dst.length values.cols dst
  exact ⟨out, e, h1, h2, h3⟩

/-- the modes of a state are all different -/
theorem table_nodup (M N nfp : Int) (hM : 1 ≤ M) (hN : 0 ≤ N) (hf : nfp ≠ 0) :
    (stateModeTable M N nfp).Nodup := by
  obtain ⟨hlen, hget⟩ := table_length M N nfp hM hN
  rw [List.nodup_iff_getElem?_ne_getElem?]
  intro i j hij hj e
  obtain ⟨m, n, hv, hi⟩ := idx_surj (i := (i : Int)) hN (by omega) (by omega) hM
  obtain ⟨m', n', hv', hj'⟩ := idx_surj (i := (j : Int)) hN (by omega) (by omega) hM
  have e1 := hget m n hv
  have e2 := hget m' n' hv'
  rw [hi] at e1
  rw [hj'] at e2
  simp only [Int.toNat_natCast] at e1 e2
  rw [e1, e2] at e
  simp only [Option.some.injEq, Prod.mk.injEq] at e
  have : n = n' := by
    exact Int.eq_of_mul_eq_mul_right hf e.2
  rw [e.1, this, hj'] at hi
  omega

theorem mem_table (M N nfp : Int) (hM : 1 ≤ M) (hN : 0 ≤ N) (hf : nfp ≠ 0) (m n : Int) :
    (m, n * nfp) ∈ stateModeTable M N nfp ↔ validMode M N m n := by
  obtain ⟨hlen, hget⟩ := table_length M N nfp hM hN
  constructor
  · intro h
    obtain ⟨i, hi⟩ := List.getElem?_of_mem h
    have hlt : i < (stateModeTable M N nfp).length := by
      by_contra hge
      rw [List.getElem?_eq_none (by omega)] at hi
      cases hi
    obtain ⟨m', n', hv, e⟩ := idx_surj (i := (i : Int)) hN (by omega) (by omega) hM
    have e1 := hget m' n' hv
    rw [e] at e1
    simp only [Int.toNat_natCast] at e1
    rw [hi] at e1
    simp only [Option.some.injEq, Prod.mk.injEq] at e1
    have : n = n' := Int.eq_of_mul_eq_mul_right hf e1.2
    rw [e1.1, this]
    exact hv
  · intro h
    exact List.mem_of_getElem? (hget m n h)

theorem mapM_ok {α β : Type} (f : α → Outcome β) (l : List α) (h : ∀ a ∈ l, ∃ b, f a = .ok b) :
    ∃ l', l.mapM f = .ok l' ∧ List.Forall₂ (fun a b => f a = .ok b) l l' := by
  induction l with
  | nil => exact ⟨[], rfl, .nil⟩
  | cons a l ih =>
    obtain ⟨b, hb⟩ := h a (by simp)
    obtain ⟨l', e, hl⟩ := ih (fun x hx => h x (by simp [hx]))
    refine ⟨b :: l', ?_, .cons hb hl⟩
    rw [List.mapM_cons, hb, Outcome.bind_ok, e, Outcome.bind_ok]; rfl

/-! ## interpolation -/

/-- `np.interp` looks at the interval that contains `x` -/
theorem npInterp_spec {n : Int} (hn : 1 ≤ n) (xp fp : Int → ℝ)
    (hinc : ∀ i k, 0 ≤ i → i < k → k < n → xp i < xp k) (x : ℝ) (hx : xp 0 ≤ x) :
    (xp (n - 1) ≤ x ∧ npInterp n xp fp x = fp (n - 1)) ∨
    ∃ j, (0 ≤ j ∧ j + 1 < n) ∧ (xp j ≤ x ∧ x < xp (j + 1)) ∧
      npInterp n xp fp x = (fp (j + 1) - fp j) / (xp (j + 1) - xp j) * (x - xp j) + fp j := by
  have key := forRange_inv (lo := 0) (hi := n) (by omega) (fun i (acc : Int) => if xp i ≤ x then i else acc) (-1)
    (fun (i : Int) (acc : Int) => (acc < i ∧ (0 < i → 0 ≤ acc ∧ xp acc ≤ x)) ∧ (i = 0 → acc = -1) ∧
      ∀ k, acc < k → k < i → x < xp k)
    ⟨⟨by omega, fun h => absurd h (by omega)⟩, fun _ => rfl, fun k h1 h2 => by omega⟩
    (by
      intro i acc h0 h1 ⟨⟨a1, a2⟩, a3, a4⟩
      beta_reduce
      split
      · rename_i hle
        exact ⟨⟨by omega, fun _ => ⟨h0, hle⟩⟩, fun h => by omega, fun k k1 k2 => by omega⟩
      · rename_i hle
        refine ⟨⟨by omega, fun _ => ?_⟩, fun h => by omega, fun k k1 k2 => ?_⟩
        · by_cases hz : i = 0
          · subst hz; exact absurd hx hle
          · exact a2 (by omega)
        · by_cases hk : k = i
          · rw [hk]; exact lt_of_not_ge hle
          · exact a4 k k1 (by omega))
  unfold npInterp
  dsimp only
  generalize forRange 0 n (fun i (acc : Int) => if xp i ≤ x then i else acc) (-1) = j at key
  obtain ⟨⟨a1, a2⟩, -, a4⟩ := key
  obtain ⟨b1, b2⟩ := a2 (by omega)
  rw [if_neg (by omega)]
  by_cases hj : j ≥ n - 1
  · left
    have : j = n - 1 := by omega
    subst this
    rw [if_pos hj]
    exact ⟨b2, rfl⟩
  · right
    rw [if_neg hj]
    exact ⟨j, ⟨b1, by omega⟩, ⟨b2, a4 _ (by omega) (by omega)⟩, rfl⟩

theorem npInterp_node {n : Int} (hn : 1 ≤ n) (xp fp : Int → ℝ)
    (hinc : ∀ i k, 0 ≤ i → i < k → k < n → xp i < xp k) {i : Int} (h0 : 0 ≤ i) (h1 : i < n) :
    npInterp n xp fp (xp i) = fp i := by
  have hle : xp 0 ≤ xp i := by
    rcases eq_or_lt_of_le h0 with h | h
    · rw [← h]
    · exact (hinc 0 i (le_refl _) h h1).le
  rcases npInterp_spec hn xp fp hinc (xp i) hle with ⟨a, b⟩ | ⟨j, ⟨j0, j1⟩, ⟨a1, a2⟩, b⟩
  · rcases lt_or_eq_of_le (show i ≤ n - 1 by omega) with h | h
    · exact absurd (hinc i (n - 1) h0 h (by omega)) (not_lt.2 a)
    · rw [b, h]
  · have hij : i = j := by
      rcases lt_trichotomy i j with h | h | h
      · exact absurd (hinc i j h0 h (by omega)) (not_lt.2 a1)
      · exact h
      · exfalso
        rcases eq_or_lt_of_le (show j + 1 ≤ i by omega) with h' | h'
        · rw [h'] at a2; exact lt_irrefl _ a2
        · exact absurd a2 (not_lt.2 (hinc (j + 1) i (by omega) h' h1).le)
    rw [b, hij]; ring

theorem npInterp_affine {n : Int} (hn : 1 ≤ n) (xp fp : Int → ℝ)
    (hinc : ∀ i k, 0 ≤ i → i < k → k < n → xp i < xp k) (a b x : ℝ)
    (hf : ∀ i, 0 ≤ i → i < n → fp i = a + b * xp i) (h0 : xp 0 ≤ x) (h1 : x ≤ xp (n - 1)) :
    npInterp n xp fp x = a + b * x := by
  rcases npInterp_spec hn xp fp hinc x h0 with ⟨c, e⟩ | ⟨j, ⟨j0, j1⟩, ⟨a1, a2⟩, e⟩
  · rw [e, hf _ (by omega) (by omega), le_antisymm c h1]
  · rw [e, hf _ (by omega) (by omega), hf j j0 (by omega)]
    have : xp (j + 1) - xp j ≠ 0 := (sub_pos.2 (lt_of_le_of_lt a1 a2)).ne'
    field_simp
    ring

/-- the value lies between those of the two neighbours -/
theorem npInterp_range {n : Int} (hn : 1 ≤ n) (xp fp : Int → ℝ)
    (hinc : ∀ i k, 0 ≤ i → i < k → k < n → xp i < xp k) (x lo hi : ℝ) (h0 : xp 0 ≤ x)
    (hf : ∀ i, 0 ≤ i → i < n → lo ≤ fp i ∧ fp i ≤ hi) :
    lo ≤ npInterp n xp fp x ∧ npInterp n xp fp x ≤ hi := by
  rcases npInterp_spec hn xp fp hinc x h0 with ⟨c, e⟩ | ⟨j, ⟨j0, j1⟩, ⟨a1, a2⟩, e⟩
  · rw [e]; exact hf _ (by omega) (by omega)
  · have f1 := hf (j + 1) (by omega) (by omega)
    have f0 := hf j j0 (by omega)
    have hd : 0 < xp (j + 1) - xp j := sub_pos.2 (lt_of_le_of_lt a1 a2)
    have ht0 : 0 ≤ (x - xp j) / (xp (j + 1) - xp j) := div_nonneg (by linarith) hd.le
    have ht1 : (x - xp j) / (xp (j + 1) - xp j) ≤ 1 := (div_le_one hd).2 (by linarith)
    have e' : npInterp n xp fp x = fp j * (1 - (x - xp j) / (xp (j + 1) - xp j))
        + fp (j + 1) * ((x - xp j) / (xp (j + 1) - xp j)) := by
      rw [e]; ring
    rw [e']
    constructor <;> nlinarith

theorem linspace_lt {ns i k : Int} (hns : 2 ≤ ns) (h : i < k) : linspace ns i < linspace ns k := by
  unfold linspace
  have : (2 : ℝ) ≤ ns := by exact_mod_cast hns
  apply div_lt_div_of_pos_right _ (by linarith)
  exact_mod_cast h

theorem linspace_nonneg {ns i : Int} (hns : 2 ≤ ns) (h : 0 ≤ i) : 0 ≤ linspace ns i := by
  unfold linspace
  have : (2 : ℝ) ≤ ns := by exact_mod_cast hns
  exact div_nonneg (by exact_mod_cast h) (by linarith)

theorem linspace_zero (ns : Int) : linspace ns 0 = 0 := by simp [linspace]

theorem linspace_last {ns : Int} (hns : 2 ≤ ns) : linspace ns (ns - 1) = 1 := by
  unfold linspace
  have : (2 : ℝ) ≤ ns := by exact_mod_cast hns
  push_cast
  exact div_self (by linarith)

theorem linspace_le_one {ns i : Int} (hns : 2 ≤ ns) (h : i < ns) : linspace ns i ≤ 1 := by
  rw [← linspace_last hns]
  rcases eq_or_lt_of_le (show i ≤ ns - 1 by omega) with h | h
  · rw [h]
  · exact (linspace_lt hns h).le

theorem sqrt_lt {ns i k : Int} (hns : 2 ≤ ns) (h0 : 0 ≤ i) (h : i < k) :
    Real.sqrt (linspace ns i) < Real.sqrt (linspace ns k) :=
  Real.sqrt_lt_sqrt (linspace_nonneg hns h0) (linspace_lt hns h)

theorem scale_pos {ns j : Int} (hns : 2 ≤ ns) (hj : 0 ≤ j) : 0 < scale ns j := by
  unfold scale
  apply one_div_pos.2
  apply Real.sqrt_pos.2
  rw [← linspace_zero ns]
  apply linspace_lt hns
  split <;> omega

theorem scale_eq {ns j : Int} (hj : 1 ≤ j) : scale ns j = 1 / Real.sqrt (linspace ns j) := by
  unfold scale; rw [if_neg (by omega)]

end Verif.Contin
