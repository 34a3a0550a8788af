import Verif.Multigrid.Model
import Verif.Common.Assign
import Verif.Coeffs.Lemmas
import Verif.Partition.Props

namespace Verif.Multigrid
open Verif Verif.Coeffs Verif.Partition

/-! ## teams -/

/-- a team as `InitializeRadial` sets it up: the thread count leaves every thread at least two surfaces
    (`vmec_adjust_num_threads`, property C04) -/
def GoodTeam (nt ns : Int) (lfreeb : Bool) (R : Int → Ranges) : Prop :=
  1 ≤ nt ∧ 3 ≤ ns ∧ 2 * nt ≤ numSurfacesToDistribute ns lfreeb ∧ Team nt ns lfreeb R

theorem team_shape {nt ns : Int} {lfreeb : Bool} {R : Int → Ranges} (h : GoodTeam nt ns lfreeb R) {t : Int}
    (ht : isThread nt t) :
    0 ≤ (R t).nsMinF ∧ (R t).nsMinF + 2 ≤ (R t).nsMaxF ∧ (R t).nsMaxF ≤ ns ∧
      (R t).nsMinF1 = max 0 ((R t).nsMinF - 1) ∧ (R t).nsMaxF1 = min ns ((R t).nsMaxF + 1) ∧
      (R t).nsMaxFIncludingLcfs = (if (R t).nsMaxF1 = ns then ns else (R t).nsMaxF) ∧
      (t = 0 → (R t).nsMinF = 0) ∧ (t ≠ 0 → 2 ≤ (R t).nsMinF) := by
  obtain ⟨h1, h2, h3, hT⟩ := h
  obtain ⟨f0, f1, f2, f3, f4, f5, f6, f7, f8, f9⟩ := team_facts (by omega) h1 hT ht
  have hn : 0 ≤ numSurfacesToDistribute ns lfreeb := n_nonneg (by omega)
  have hp : 0 < nt := by omega
  have hN : numSurfacesToDistribute ns lfreeb ≤ ns := by unfold numSurfacesToDistribute; split <;> omega
  have b0 := split_nonneg hn hp ht.1
  have b1 := split_le hn hp ht.2
  have b2 : splitMin _ nt t + 2 ≤ splitMax _ nt t := split_ge hn hp (by omega) t
  have b3 : splitMin (numSurfacesToDistribute ns lfreeb) nt 0 + 2 ≤ splitMax _ nt 0 := split_ge hn hp (by omega) 0
  have b4 := splitMin_zero hn hp
  rw [splitMax_eq_succ hn hp] at b3
  refine ⟨by omega, by omega, by omega, f3, f4, f9, ?_, ?_⟩
  · rintro rfl; omega
  · intro hne
    have := splitMin_mono hn hp (show (0 : Int) + 1 ≤ t by have := ht.1; omega)
    omega

theorem team_holder {nt ns : Int} {lfreeb : Bool} {R : Int → Ranges} (h : GoodTeam nt ns lfreeb R) {j : Int}
    (h0 : 0 ≤ j) (hj : j < ns) :
    ∃ t, isThread nt t ∧ (R t).nsMinF ≤ j ∧ j < (R t).nsMaxFIncludingLcfs := by
  have hN : numSurfacesToDistribute ns lfreeb = ns ∨ numSurfacesToDistribute ns lfreeb = ns - 1 := by
    unfold numSurfacesToDistribute; split <;> simp
  obtain ⟨c1, _, _⟩ := C01_radial_split nt ns lfreeb R (by have := h.2.1; omega) h.1 h.2.2.2
  have h3 := h.2.1
  by_cases hl : j < numSurfacesToDistribute ns lfreeb
  · obtain ⟨t, ht, ho⟩ := (c1 j).1 (evolved_iff.2 ⟨h0, hl⟩)
    refine ⟨t, ht, ho.1, ?_⟩
    obtain ⟨a1, a2, a3, a4, a5, a6, a7, a8⟩ := team_shape h ht
    unfold owns at ho
    rw [a6]; split <;> omega
  · obtain ⟨t, ht, ho⟩ := (c1 (ns - 2)).1 (evolved_iff.2 (by omega))
    refine ⟨t, ht, ?_⟩
    obtain ⟨a1, a2, a3, a4, a5, a6, a7, a8⟩ := team_shape h ht
    unfold owns at ho
    rw [a6, if_pos (by omega)]
    omega

theorem lastThread_spec {nt : Int} (hnt : 0 ≤ nt) (p : Int → Bool) (h : ∃ t, isThread nt t ∧ p t = true) :
    isThread nt (lastThread nt p) ∧ p (lastThread nt p) = true := by
  have key := forRange_inv (lo := 0) (hi := nt) hnt (fun t acc => if p t then t else acc) (0 : Int)
    (fun (j acc : Int) => (∃ t, 0 ≤ t ∧ t < j ∧ p t = true) → (0 ≤ acc ∧ acc < j) ∧ p acc = true)
    (by rintro ⟨t, h1, h2, _⟩; omega)
    (by
      intro j acc h0 h1 ih
      by_cases hp : p j = true
      · rintro -; rw [if_pos hp]; exact ⟨⟨h0, by omega⟩, hp⟩
      · rw [if_neg hp]
        rintro ⟨t, k0, k1, k2⟩
        have hne : t ≠ j := fun e => hp (e ▸ k2)
        obtain ⟨⟨i0, i1⟩, i2⟩ := ih ⟨t, k0, by omega, k2⟩
        exact ⟨⟨i0, by omega⟩, i2⟩)
  obtain ⟨t, ht, hp⟩ := h
  exact key ⟨t, ht.1, ht.2, hp⟩

/-! ## setups -/

structure Setup.Good (x : Setup) (lfreeb : Bool) : Prop where
  mpol : 1 ≤ x.mpol
  ntor : 0 ≤ x.ntor
  finer : x.ns_old ≤ x.ns_new
  old : GoodTeam x.nt_old x.ns_old lfreeb x.rOld
  new : GoodTeam x.nt_new x.ns_new lfreeb x.rNew

variable {x : Setup} {lfreeb : Bool}

theorem threadWith_spec (h : x.Good lfreeb) {j : Int} (h0 : 0 ≤ j) (hj : j < x.ns_old) :
    isThread x.nt_old (x.threadWith j) ∧ holds (x.rOld (x.threadWith j)) j := by
  have := lastThread_spec (nt := x.nt_old) (by have := h.old.1; omega)
    (fun t => decide ((x.rOld t).nsMinF ≤ j ∧ j < (x.rOld t).nsMaxFIncludingLcfs))
    (by simpa using team_holder h.old h0 hj)
  obtain ⟨ht, hp⟩ := this
  beta_reduce at hp
  rw [decide_eq_true_eq] at hp
  refine ⟨ht, ?_⟩
  have ht' : isThread x.nt_old (x.threadWith j) := ht
  have hp' : (x.rOld (x.threadWith j)).nsMinF ≤ j ∧ j < (x.rOld (x.threadWith j)).nsMaxFIncludingLcfs := hp
  obtain ⟨a1, a2, a3, a4, a5, a6, a7, a8⟩ := team_shape h.old ht'
  unfold holds
  rw [a6] at hp'
  split at hp' <;> omega

theorem threadWith_zero (h : x.Good lfreeb) : x.threadWith 0 = 0 := by
  obtain ⟨ht, hh⟩ := threadWith_spec h (le_refl 0) (by have := h.old.2.1; omega)
  obtain ⟨a1, a2, a3, a4, a5, a6, a7, a8⟩ := team_shape h.old ht
  by_contra hne
  have := a8 hne
  unfold holds at hh
  omega

theorem sourceThread_spec (h : x.Good lfreeb) {j : Int} (h0 : 0 ≤ j) (hj : j < x.ns_old) :
    isThread x.nt_old (x.sourceThread j) ∧ holds (x.rOld (x.sourceThread j)) j := by
  have := lastThread_spec (nt := x.nt_old) (by have := h.old.1; omega)
    (fun t => decide ((x.rOld t).nsMinF1 ≤ j ∧ j < (x.rOld t).nsMaxF1))
    (by
      obtain ⟨ht, hh⟩ := threadWith_spec h h0 hj
      exact ⟨_, ht, by simpa [holds] using hh⟩)
  obtain ⟨ht, hp⟩ := this
  beta_reduce at hp
  rw [decide_eq_true_eq] at hp
  exact ⟨ht, hp⟩

/-- only thread 0 holds the axis -/
theorem axis_holder {nt ns : Int} {R : Int → Ranges} (h : GoodTeam nt ns lfreeb R) {t : Int}
    (ht : isThread nt t) : holds (R t) 0 ↔ t = 0 := by
  obtain ⟨a1, a2, a3, a4, a5, a6, a7, a8⟩ := team_shape h ht
  have := h.2.1
  unfold holds
  constructor
  · intro hh; by_contra hne; have := a8 hne; omega
  · intro e; have := a7 e; omega

theorem holds_range {nt ns : Int} {R : Int → Ranges} (h : GoodTeam nt ns lfreeb R) {t j : Int}
    (ht : isThread nt t) (hh : holds (R t) j) : 0 ≤ j ∧ j < ns := by
  obtain ⟨a1, a2, a3, a4, a5, a6, a7, a8⟩ := team_shape h ht
  unfold holds at hh
  omega

/-! ## positions -/

theorem pos_bounds {A a M m N n : Int} (ha : 0 ≤ a) (ha' : a < A) (hm : 0 ≤ m) (hm' : m < M) (hn : 0 ≤ n)
    (hn' : n ≤ N) : 0 ≤ (a * M + m) * (N + 1) + n ∧ (a * M + m) * (N + 1) + n < A * M * (N + 1) := by
  have h1 : 0 ≤ a * M + m := by have := mul_nonneg ha (by omega : 0 ≤ M); omega
  have h2 : a * M + m + 1 ≤ A * M := by
    have := mul_le_mul_of_nonneg_right (by omega : a + 1 ≤ A) (by omega : 0 ≤ M)
    nlinarith
  have h3 := mul_nonneg h1 (by omega : 0 ≤ N + 1)
  have h4 := mul_le_mul_of_nonneg_right h2 (by omega : 0 ≤ N + 1)
  constructor
  · omega
  · nlinarith

/-- `(m, n)` is a coefficient of the state vector -/
def Setup.isMode (x : Setup) (m n : Int) : Prop := (0 ≤ m ∧ m < x.mpol) ∧ 0 ≤ n ∧ n ≤ x.ntor

theorem idx_old {t j m n : Int} (hj : holds (x.rOld t) j) (h : x.isMode m n) :
    0 ≤ (x.ctxOld t).idx j m n ∧ (x.ctxOld t).idx j m n < arraySize (x.ctxOld t) := by
  unfold holds at hj
  exact pos_bounds (by show 0 ≤ j - (x.rOld t).nsMinF1; omega) (by
    show j - (x.rOld t).nsMinF1 < (x.rOld t).nsMaxF1 - (x.rOld t).nsMinF1; omega) h.1.1 h.1.2 h.2.1 h.2.2

theorem idx_new {t j m n : Int} (hj : holds (x.rNew t) j) (h : x.isMode m n) :
    0 ≤ (x.ctxNew t).idx j m n ∧ (x.ctxNew t).idx j m n < arraySize (x.ctxNew t) := by
  unfold holds at hj
  exact pos_bounds (by show 0 ≤ j - (x.rNew t).nsMinF1; omega) (by
    show j - (x.rNew t).nsMinF1 < (x.rNew t).nsMaxF1 - (x.rNew t).nsMinF1; omega) h.1.1 h.1.2 h.2.1 h.2.2

theorem rd_ok {nt : Int} {ctx : Int → Ctx} (s : Store) {t : Int} (c : F) {i : Int} (ht : isThread nt t)
    (hi : 0 ≤ i ∧ i < arraySize (ctx t)) : rd nt ctx s t c i = .ok (s (t, c, i)) := by
  unfold rd; rw [if_pos ⟨ht, hi⟩]

theorem wr_ok {nt : Int} {ctx : Int → Ctx} (s : Store) {t : Int} (c : F) {i : Int} (v : ℝ) (ht : isThread nt t)
    (hi : 0 ≤ i ∧ i < arraySize (ctx t)) :
    wr nt ctx s t c i v = .ok (fun k => if k = (t, c, i) then v else s k) := by
  unfold wr; rw [if_pos ⟨ht, hi⟩]

theorem mem_members (x : Setup) (t : Int) (c : F) :
    c ∈ members x.lthreed x.lasym ↔ (x.ctxNew t).has c = true := by
  have e : (x.ctxNew t).lthreed = x.lthreed := rfl
  have e' : (x.ctxNew t).lasym = x.lasym := rfl
  unfold members
  cases h3 : x.lthreed <;> cases hl : x.lasym <;> cases c <;> simp [Ctx.has, e, e', h3, hl]

theorem has_old (x : Setup) (t t' : Int) (c : F) : (x.ctxOld t).has c = (x.ctxNew t').has c := by
  cases c <;> rfl

end Verif.Multigrid
