import Verif.Output.Gather
import Verif.Partition.Props
import Verif.Radial.Apply

/-! # The collected results are the global arrays, whatever the number of threads (C82) -/
namespace Verif.Output
open Verif Verif.Partition Verif.Radial

/-- a loop that writes one row of a flat matrix -/
theorem rowLoop {C : Type} {N j j0 kl0 : Int} (g : C → Prop) [DecidablePred g] (v : C → Int → ℝ) (a : C → Int → ℝ) (c : C) (h0 : 0 ≤ kl0) (h1 : kl0 < N) :
    forRange 0 N (fun kl a => fun c i => if i = j * N + kl ∧ g c then v c kl else a c i) a c (j0 * N + kl0)
      = if j = j0 ∧ g c then v c kl0 else a c (j0 * N + kl0) := by
  refine (pickLoop (fun a : C → Int → ℝ => a c (j0 * N + kl0)) _ (i0 := kl0) (fun x => if j = j0 ∧ g c then v c kl0 else x) ?_ ?_ a).trans (if_pos ⟨h0, h1⟩)
  · intro i s k0 k1 hne
    exact if_neg (fun e => hne (flat_inj h0 h1 k0 k1 e.1).2.symm)
  · intro s _ _
    exact if_congr (and_congr_left fun _ => ⟨fun e => (flat_inj h0 h1 h0 h1 e).1.symm, fun e => by rw [e]⟩) rfl rfl

section half
variable {s : Sizes.Sizes} {ns : Int}

theorem half_profH (t : Piece) (c : ProfH) (jH : Int) (res : Results) :
    (forRange t.r.nsMinH t.r.nsMaxH (gatherHalf s ns t) res).profH c jH
      = if countsHalf ns t.r jH then t.profH c (jH - t.r.nsMinH) else res.profH c jH := by
  refine (pickLoop (fun r : Results => r.profH c jH) _ (i0 := jH) (fun x => if jH < t.r.nsMaxH - 1 ∨ jH = ns - 2 then t.profH c (jH - t.r.nsMinH) else x) ?_ ?_ res).trans ?_
  · intro i r _ _ hne
    unfold gatherHalf
    split
    · exact if_neg (fun e => hne e.symm)
    · rfl
  · intro r _ _
    unfold gatherHalf
    split
    · exact if_pos rfl
    · rfl
  · have hc : countsHalf ns t.r jH ↔ t.r.nsMinH ≤ jH ∧ jH < t.r.nsMaxH ∧ (jH < t.r.nsMaxH - 1 ∨ jH = ns - 2) := Iff.rfl
    by_cases h1 : t.r.nsMinH ≤ jH ∧ jH < t.r.nsMaxH
    · rw [if_pos h1]; exact if_congr (by tauto) rfl rfl
    · rw [if_neg h1, if_neg (by tauto)]

theorem half_gridH (t : Piece) (c : GridH) (jH kl : Int) (k0 : 0 ≤ kl) (k1 : kl < s.nZnT) (res : Results) :
    (forRange t.r.nsMinH t.r.nsMaxH (gatherHalf s ns t) res).gridH c (jH * s.nZnT + kl)
      = if countsHalf ns t.r jH ∧ c.on s = true then t.gridH c ((jH - t.r.nsMinH) * s.nZnT + kl) else res.gridH c (jH * s.nZnT + kl) := by
  refine (pickLoop (fun r : Results => r.gridH c (jH * s.nZnT + kl)) _ (i0 := jH)
    (fun x => if (jH < t.r.nsMaxH - 1 ∨ jH = ns - 2) ∧ c.on s = true then t.gridH c ((jH - t.r.nsMinH) * s.nZnT + kl) else x) ?_ ?_ res).trans ?_
  · intro i r _ _ hne
    unfold gatherHalf
    split
    · refine (rowLoop (fun c : GridH => c.on s = true) (fun c kl => t.gridH c ((i - t.r.nsMinH) * s.nZnT + kl)) r.gridH c k0 k1).trans (if_neg (fun e => hne e.1))
    · rfl
  · intro r _ _
    unfold gatherHalf
    by_cases h : jH < t.r.nsMaxH - 1 ∨ jH = ns - 2
    · rw [if_pos h]
      refine (rowLoop (fun c : GridH => c.on s = true) (fun c kl => t.gridH c ((jH - t.r.nsMinH) * s.nZnT + kl)) r.gridH c k0 k1).trans ?_
      exact if_congr (by simp [h]) rfl rfl
    · rw [if_neg h, if_neg (fun e => h e.1)]
  · have hc : countsHalf ns t.r jH ↔ t.r.nsMinH ≤ jH ∧ jH < t.r.nsMaxH ∧ (jH < t.r.nsMaxH - 1 ∨ jH = ns - 2) := Iff.rfl
    by_cases h1 : t.r.nsMinH ≤ jH ∧ jH < t.r.nsMaxH
    · rw [if_pos h1]; exact if_congr (by tauto) rfl rfl
    · rw [if_neg h1, if_neg (by tauto)]

theorem half_rest (t : Piece) (res : Results) :
    let r := forRange t.r.nsMinH t.r.nsMaxH (gatherHalf s ns t) res
    r.profF = res.profF ∧ r.coef = res.coef ∧ r.gridF = res.gridF ∧ r.gridO = res.gridO ∧ r.bsubvF = res.bsubvF ∧ r.phiF = res.phiF ∧ r.currv = res.currv := by
  intro r
  rcases le_total t.r.nsMaxH t.r.nsMinH with h | h
  · have : r = res := forRange_empty h _ _
    rw [this]; simp
  · refine forRange_inv h (gatherHalf s ns t) res (fun _ r => r.profF = res.profF ∧ r.coef = res.coef ∧ r.gridF = res.gridF ∧ r.gridO = res.gridO ∧ r.bsubvF = res.bsubvF ∧ r.phiF = res.phiF ∧ r.currv = res.currv) (by simp) ?_
    intro j r _ _ ih
    unfold gatherHalf
    split <;> exact ih

end half

section full
variable {s : Sizes.Sizes} {lam : ℝ}

theorem full_profF (t : Piece) (c : ProfF) (jF : Int) (res : Results) :
    (forRange t.r.nsMinF t.r.nsMaxFIncludingLcfs (gatherFull s lam t) res).profF c jF
      = if t.r.nsMinF ≤ jF ∧ jF < t.r.nsMaxFIncludingLcfs then t.profF c (jF - t.r.nsMinF1) else res.profF c jF := by
  refine (pickLoop (fun r : Results => r.profF c jF) _ (i0 := jF) (fun _ => t.profF c (jF - t.r.nsMinF1)) ?_ ?_ res)
  · intro i r _ _ hne
    exact if_neg (fun e => hne e.symm)
  · intro r _ _
    exact if_pos rfl

/-- the transposition of the coefficients of one surface -/
theorem coefLoop (t : Piece) (jF : Int) (x : Coef → Int → ℝ) (c : Coef) (j m n : Int) (m0 : 0 ≤ m) (m1 : m < s.mpol) (n0 : 0 ≤ n) (n1 : n ≤ s.ntor) :
    forRange 0 (s.ntor + 1) (fun n x => forRange 0 s.mpol (fun m x =>
      fun c i => if i = (jF * (s.ntor + 1) + n) * s.mpol + m ∧ Coef.on s c = true then t.coef c (((jF - t.r.nsMinF1) * s.mpol + m) * (s.ntor + 1) + n) else x c i) x) x
      c ((j * (s.ntor + 1) + n) * s.mpol + m)
      = if jF = j ∧ Coef.on s c = true then t.coef c (((jF - t.r.nsMinF1) * s.mpol + m) * (s.ntor + 1) + n) else x c ((j * (s.ntor + 1) + n) * s.mpol + m) := by
  have inner (n' : Int) (x : Coef → Int → ℝ) := rowLoop (N := s.mpol) (j := jF * (s.ntor + 1) + n') (j0 := j * (s.ntor + 1) + n) (kl0 := m) (fun c : Coef => c.on s = true)
    (fun c m => t.coef c (((jF - t.r.nsMinF1) * s.mpol + m) * (s.ntor + 1) + n')) x c m0 m1
  refine (pickLoop (fun x : Coef → Int → ℝ => x c ((j * (s.ntor + 1) + n) * s.mpol + m)) _ (i0 := n) (fun v => if jF = j ∧ Coef.on s c = true then t.coef c (((jF - t.r.nsMinF1) * s.mpol + m) * (s.ntor + 1) + n) else v) ?_ ?_ x).trans (if_pos ⟨n0, by omega⟩)
  · intro i x k0 k1 hne
    refine (inner i x).trans (if_neg (fun e => hne (flat_inj k0 k1 n0 (by omega) e.1).2))
  · intro x _ _
    refine (inner n x).trans (if_congr (and_congr_left fun _ => ⟨fun e => (flat_inj n0 (by omega) n0 (by omega) e).1, fun e => by rw [e]⟩) rfl rfl)

theorem full_coef (t : Piece) (c : Coef) (j m n : Int) (m0 : 0 ≤ m) (m1 : m < s.mpol) (n0 : 0 ≤ n) (n1 : n ≤ s.ntor) (res : Results) :
    (forRange t.r.nsMinF t.r.nsMaxFIncludingLcfs (gatherFull s lam t) res).coef c ((j * (s.ntor + 1) + n) * s.mpol + m)
      = if (t.r.nsMinF ≤ j ∧ j < t.r.nsMaxFIncludingLcfs) ∧ c.on s = true then t.coef c (((j - t.r.nsMinF1) * s.mpol + m) * (s.ntor + 1) + n)
        else res.coef c ((j * (s.ntor + 1) + n) * s.mpol + m) := by
  refine (pickLoop (fun r : Results => r.coef c ((j * (s.ntor + 1) + n) * s.mpol + m)) _ (i0 := j)
    (fun x => if c.on s = true then t.coef c (((j - t.r.nsMinF1) * s.mpol + m) * (s.ntor + 1) + n) else x) ?_ ?_ res).trans ?_
  · intro i r _ _ hne
    exact (coefLoop t i r.coef c j m n m0 m1 n0 n1).trans (if_neg (fun e => hne e.1))
  · intro r _ _
    exact (coefLoop t j r.coef c j m n m0 m1 n0 n1).trans (if_congr (by simp) rfl rfl)
  · by_cases h1 : t.r.nsMinF ≤ j ∧ j < t.r.nsMaxFIncludingLcfs
    · rw [if_pos h1]; exact if_congr (by tauto) rfl rfl
    · rw [if_neg h1, if_neg (by tauto)]

theorem full_gridF (t : Piece) (c : GridF) (j kl : Int) (k0 : 0 ≤ kl) (k1 : kl < s.nZnT) (res : Results) :
    (forRange t.r.nsMinF t.r.nsMaxFIncludingLcfs (gatherFull s lam t) res).gridF c (j * s.nZnT + kl)
      = if t.r.nsMinF ≤ j ∧ j < t.r.nsMaxFIncludingLcfs then (if c.on s = true then t.gridF c ((j - t.r.nsMinF1) * s.nZnT + kl) else 0) else res.gridF c (j * s.nZnT + kl) := by
  have row (i : Int) (g : GridF → Int → ℝ) := rowLoop (N := s.nZnT) (j := i) (j0 := j) (fun _ : GridF => True) (fun c kl => if c.on s = true then t.gridF c ((i - t.r.nsMinF1) * s.nZnT + kl) else 0) g c k0 k1
  simp only [and_true] at row
  refine (pickLoop (fun r : Results => r.gridF c (j * s.nZnT + kl)) _ (i0 := j)
    (fun _ => if c.on s = true then t.gridF c ((j - t.r.nsMinF1) * s.nZnT + kl) else 0) ?_ ?_ res)
  · intro i r _ _ hne
    exact (row i r.gridF).trans (if_neg (fun e => hne e))
  · intro r _ _
    exact (row j r.gridF).trans (if_pos rfl)

theorem full_gridO (t : Piece) (c : GridO) (j kl : Int) (k0 : 0 ≤ kl) (k1 : kl < s.nZnT) (res : Results) :
    (forRange t.r.nsMinF t.r.nsMaxFIncludingLcfs (gatherFull s lam t) res).gridO c (j * s.nZnT + kl)
      = if t.r.nsMinF ≤ j ∧ j < t.r.nsMaxFIncludingLcfs then t.gridO c ((j - t.r.nsMinF) * s.nZnT + kl) else res.gridO c (j * s.nZnT + kl) := by
  have row (i : Int) (g : GridO → Int → ℝ) := rowLoop (N := s.nZnT) (j := i) (j0 := j) (fun _ : GridO => True) (fun c kl => t.gridO c ((i - t.r.nsMinF) * s.nZnT + kl)) g c k0 k1
  simp only [and_true] at row
  refine (pickLoop (fun r : Results => r.gridO c (j * s.nZnT + kl)) _ (i0 := j)
    (fun _ => t.gridO c ((j - t.r.nsMinF) * s.nZnT + kl)) ?_ ?_ res)
  · intro i r _ _ hne
    exact (row i r.gridO).trans (if_neg (fun e => hne e))
  · intro r _ _
    exact (row j r.gridO).trans (if_pos rfl)

theorem full_bsubvF (t : Piece) (j kl : Int) (k0 : 0 ≤ kl) (k1 : kl < s.nZnT) (res : Results) :
    (forRange t.r.nsMinF t.r.nsMaxFIncludingLcfs (gatherFull s lam t) res).bsubvF (j * s.nZnT + kl)
      = if t.r.nsMinF ≤ j ∧ j < t.r.nsMaxFIncludingLcfs then bsubvF s lam t j kl else res.bsubvF (j * s.nZnT + kl) := by
  have row (i : Int) (g : Int → ℝ) : forRange 0 s.nZnT (fun kl b => fun k => if k = i * s.nZnT + kl then bsubvF s lam t i kl else b k) g (j * s.nZnT + kl)
      = if i = j then bsubvF s lam t i kl else g (j * s.nZnT + kl) := by
    refine (pickLoop (fun a : Int → ℝ => a (j * s.nZnT + kl)) _ (i0 := kl) (fun x => if i = j then bsubvF s lam t i kl else x) ?_ ?_ g).trans (if_pos ⟨k0, k1⟩)
    · intro i s l0 l1 hne
      exact if_neg (fun e => hne (flat_inj k0 k1 l0 l1 e).2.symm)
    · intro s _ _
      exact if_congr (⟨fun e => (flat_inj k0 k1 k0 k1 e).1.symm, fun e => by rw [e]⟩) rfl rfl
  refine (pickLoop (fun r : Results => r.bsubvF (j * s.nZnT + kl)) _ (i0 := j)
    (fun _ => bsubvF s lam t j kl) ?_ ?_ res)
  · intro i r _ _ hne
    exact (row i r.bsubvF).trans (if_neg (fun e => hne e))
  · intro r _ _
    exact (row j r.bsubvF).trans (if_pos rfl)

theorem full_rest (t : Piece) (res : Results) :
    let r := forRange t.r.nsMinF t.r.nsMaxFIncludingLcfs (gatherFull s lam t) res
    r.profH = res.profH ∧ r.gridH = res.gridH ∧ r.phiF = res.phiF ∧ r.currv = res.currv := by
  intro r
  rcases le_total t.r.nsMaxFIncludingLcfs t.r.nsMinF with h | h
  · have : r = res := forRange_empty h _ _
    rw [this]; simp
  · refine forRange_inv h (gatherFull s lam t) res (fun _ r => r.profH = res.profH ∧ r.gridH = res.gridH ∧ r.phiF = res.phiF ∧ r.currv = res.currv) (by simp) ?_
    intro j r _ _ ih
    exact ih

end full

/-- a loop whose passes either overwrite a quantity with the value `v` or leave it: afterwards it is `v` if some pass wrote it -/
theorem someLoop {S : Type} (proj : S → ℝ) (f : Int → S → S) {n : Int} (hn : 0 ≤ n) (W : Int → Prop) [DecidablePred W] (v : ℝ)
    (h : ∀ i s, 0 ≤ i → i < n → proj (f i s) = if W i then v else proj s) (s : S) :
    ((∃ i, 0 ≤ i ∧ i < n ∧ W i) → proj (forRange 0 n f s) = v) ∧ ((∀ i, 0 ≤ i → i < n → ¬ W i) → proj (forRange 0 n f s) = proj s) := by
  have key := forRange_inv hn f s (fun k t => ((∃ i, 0 ≤ i ∧ i < k ∧ W i) → proj t = v) ∧ ((∀ i, 0 ≤ i → i < k → ¬ W i) → proj t = proj s))
    ⟨fun ⟨i, a, b, _⟩ => absurd b (by omega), fun _ => rfl⟩ (by
      intro k t k0 k1 ih
      refine ⟨?_, ?_⟩
      · rintro ⟨i, a, b, w⟩
        rw [h k t k0 k1]
        by_cases hk : W k
        · rw [if_pos hk]
        · rw [if_neg hk]
          exact ih.1 ⟨i, a, by rcases eq_or_ne i k with e | e; exact absurd (e ▸ w) hk; omega, w⟩
      · intro hw
        rw [h k t k0 k1, if_neg (hw k k0 (by omega))]
        exact ih.2 (fun i a b => hw i a (by omega)))
  exact key

/-! ## Specification -/

/-- the quantities of the whole plasma, by surface and grid point or mode -/
structure Global where
  profH : ProfH → Int → ℝ
  gridH : GridH → Int → Int → ℝ
  profF : ProfF → Int → ℝ
  coef : Coef → Int → Int → Int → ℝ
  gridF : GridF → Int → Int → ℝ
  gridO : GridO → Int → Int → ℝ
  blmn : Int → Int → ℝ

/-- thread `t` holds its part of the global quantities, in the storage layout of the threads: half-grid arrays
    start at `nsMinH`, profiles, coefficients and geometry at `nsMinF1`, the rest at `nsMinF`, the modes of one
    surface are ordered by `m`, and `blmn` may be split into two parts on the reduced interval -/
structure Holds (s : Sizes.Sizes) (t : Piece) (G : Global) : Prop where
  profH : ∀ c j, holdsHalf t.r j → t.profH c (j - t.r.nsMinH) = G.profH c j
  gridH : ∀ c j kl, holdsHalf t.r j → 0 ≤ kl → kl < s.nZnT → t.gridH c ((j - t.r.nsMinH) * s.nZnT + kl) = G.gridH c j kl
  profF : ∀ c j, holds t.r j → t.profF c (j - t.r.nsMinF1) = G.profF c j
  coef : ∀ c j m n, holds t.r j → 0 ≤ m → m < s.mpol → 0 ≤ n → n ≤ s.ntor → t.coef c (((j - t.r.nsMinF1) * s.mpol + m) * (s.ntor + 1) + n) = G.coef c j m n
  gridF : ∀ c j kl, holds t.r j → 0 ≤ kl → kl < s.nZnT → t.gridF c ((j - t.r.nsMinF1) * s.nZnT + kl) = G.gridF c j kl
  gridO : ∀ c j kl, t.r.nsMinF ≤ j → j < t.r.nsMaxFIncludingLcfs → 0 ≤ kl → kl < s.nZnT → t.gridO c ((j - t.r.nsMinF) * s.nZnT + kl) = G.gridO c j kl
  blmn : ∀ j kl, t.r.nsMinF ≤ j → j < t.r.nsMaxFIncludingLcfs → 0 ≤ kl → kl < s.nZnT →
    t.blmn_e ((j - t.r.nsMinF) * s.nZnT + kl) + (if s.lasym = true ∧ kl.tmod s.nThetaEff < s.nThetaReduced then t.blmn_asym_e ((j - t.r.nsMinF) * s.nZnT + kl) else 0) = G.blmn j kl

variable {nt ns : Int} {lfreeb : Bool}

theorem full_cover {R : Int → Ranges} (hns : 2 ≤ ns) (hnt : 1 ≤ nt) (hT : Team nt ns lfreeb R) :
    (∀ j, 0 ≤ j → j < ns → ∃ t, 0 ≤ t ∧ t < nt ∧ (R t).nsMinF ≤ j ∧ j < (R t).nsMaxFIncludingLcfs) ∧
    (∀ t j, 0 ≤ t → t < nt → (R t).nsMinF ≤ j → j < (R t).nsMaxFIncludingLcfs → holds (R t) j) := by
  have last : ∀ t j, isThread nt t → (((R t).nsMinF ≤ j ∧ j < (R t).nsMaxFIncludingLcfs) ↔ owns (R t) j ∨ (j = ns - 1 ∧ holds (R t) j)) :=
    fun t j ht => (C02_halo nt ns lfreeb R hns hnt hT t ht).2.2.2.2.2.2 j
  refine ⟨?_, ?_⟩
  · intro j j0 j1
    by_cases he : evolved ns lfreeb j
    · obtain ⟨t, ht, ho⟩ := ((C01_radial_split nt ns lfreeb R hns hnt hT).1 j).1 he
      exact ⟨t, ht.1, ht.2, (last t j ht).2 (.inl ho)⟩
    · -- the boundary of a fixed-boundary run belongs to the thread that owns the surface inside
      have hj : j = ns - 1 ∧ lfreeb = false := by
        rw [evolved_iff] at he
        unfold numSurfacesToDistribute at he
        cases lfreeb
        · simp at he; exact ⟨by omega, rfl⟩
        · simp at he; omega
      obtain ⟨t, ht, ho⟩ := ((C01_radial_split nt ns lfreeb R hns hnt hT).1 (j - 1)).1 (by rw [evolved_iff]; unfold numSurfacesToDistribute; rw [hj.2]; simp; omega)
      have hh := ((C02_halo nt ns lfreeb R hns hnt hT t ht).1 (j - 1) ho).2.2 (by omega)
      rw [sub_add_cancel] at hh
      exact ⟨t, ht.1, ht.2, (last t j ht).2 (.inr ⟨hj.1, hh⟩)⟩
  · intro t j t0 t1 h0 h1
    rcases (last t j ⟨t0, t1⟩).1 ⟨h0, h1⟩ with h | h
    · exact ((C02_halo nt ns lfreeb R hns hnt hT t ⟨t0, t1⟩).1 j h).1
    · exact h.2

/-- **C82**: if every thread of the team holds its part of the global quantities, then the collected results are
    these quantities, for every number of threads: every half-grid surface `0 ≤ j < ns - 1` and every full-grid
    surface `0 ≤ j < ns` is filled in, with the modes of one surface reordered by `n`; what does not exist
    (`guv` and toroidal derivatives in two dimensions, coefficients of the missing symmetries) is zero, and
    `bsubvF` is the unsplit field with its factor `-lamscale` removed away from the axis. -/
theorem C82_gather (s : Sizes.Sizes) (lam : ℝ) (T : Int → Piece) (G : Global) (hns : 2 ≤ ns) (hnt : 1 ≤ nt)
    (hT : Team nt ns lfreeb (fun t => (T t).r)) (hG : ∀ t, isThread nt t → Holds s (T t) G) :
    let res := gather s ns nt lam T
    (∀ j, 0 ≤ j → j < ns - 1 →
      (∀ c, res.profH c j = G.profH c j) ∧
      ∀ c kl, 0 ≤ kl → kl < s.nZnT → res.gridH c (j * s.nZnT + kl) = if c.on s = true then G.gridH c j kl else 0) ∧
    (∀ j, 0 ≤ j → j < ns →
      (∀ c, res.profF c j = G.profF c j) ∧
      (∀ c m n, 0 ≤ m → m < s.mpol → 0 ≤ n → n ≤ s.ntor →
        res.coef c ((j * (s.ntor + 1) + n) * s.mpol + m) = if c.on s = true then G.coef c j m n else 0) ∧
      ∀ kl, 0 ≤ kl → kl < s.nZnT →
        (∀ c, res.gridF c (j * s.nZnT + kl) = if c.on s = true then G.gridF c j kl else 0) ∧
        (∀ c, res.gridO c (j * s.nZnT + kl) = G.gridO c j kl) ∧
        res.bsubvF (j * s.nZnT + kl) = if j = 0 then G.blmn j kl else -(G.blmn j kl) / lam) ∧
    res.currv = (T 0).currv := by
  intro res
  have hn0 : (0:Int) ≤ nt := by omega
  obtain ⟨cov, hold⟩ := full_cover hns hnt hT
  refine ⟨?_, ?_, ?_⟩
  · intro j j0 j1
    obtain ⟨t, ⟨ht, hc⟩, -⟩ := (C03_unique_half_point nt ns lfreeb _ hns hnt hT j).1 ⟨j0, j1⟩
    refine ⟨?_, ?_⟩
    · intro c
      refine (someLoop (fun r : Results => r.profH c j) _ hn0 (fun t => countsHalf ns (T t).r j) (G.profH c j) ?_ Results.zero).1 ⟨t, ht.1, ht.2, hc⟩
      intro i r i0 i1
      dsimp only
      rw [apply_ite (fun r : Results => r.profH c j)]
      simp only [ite_self]
      rw [(full_rest (T i) _).1, half_profH]
      split
      · rename_i h; exact (hG i ⟨i0, i1⟩).profH c j ⟨h.1, h.2.1⟩
      · rfl
    · intro c kl k0 k1
      have key := someLoop (fun r : Results => r.gridH c (j * s.nZnT + kl)) (fun thread_id res =>
        let t := T thread_id
        let res := forRange t.r.nsMinH t.r.nsMaxH (gatherHalf s ns t) res
        let res := forRange t.r.nsMinF t.r.nsMaxFIncludingLcfs (gatherFull s lam t) res
        if thread_id = 0 then { res with currv := t.currv } else res) hn0 (fun t => countsHalf ns (T t).r j ∧ c.on s = true) (G.gridH c j kl) (by
          intro i r i0 i1
          dsimp only
          rw [apply_ite (fun r : Results => r.gridH c (j * s.nZnT + kl))]
          simp only [ite_self]
          rw [(full_rest (T i) _).2.1, half_gridH _ _ _ _ k0 k1]
          split
          · rename_i h; exact (hG i ⟨i0, i1⟩).gridH c j kl ⟨h.1.1, h.1.2.1⟩ k0 k1
          · rfl) Results.zero
      split
      · rename_i h; exact key.1 ⟨t, ht.1, ht.2, hc, h⟩
      · rename_i h; exact key.2 (fun i _ _ hw => h hw.2)
  · intro j j0 j1
    obtain ⟨t, t0, t1, hf⟩ := cov j j0 j1
    have hw : ∃ i, 0 ≤ i ∧ i < nt ∧ ((T i).r.nsMinF ≤ j ∧ j < (T i).r.nsMaxFIncludingLcfs) := ⟨t, t0, t1, hf⟩
    refine ⟨?_, ?_, ?_⟩
    · intro c
      refine (someLoop (fun r : Results => r.profF c j) _ hn0 (fun t => (T t).r.nsMinF ≤ j ∧ j < (T t).r.nsMaxFIncludingLcfs) (G.profF c j) ?_ Results.zero).1 hw
      intro i r i0 i1
      dsimp only
      rw [apply_ite (fun r : Results => r.profF c j)]
      simp only [ite_self]
      rw [full_profF, (half_rest (T i) _).1]
      split
      · rename_i h; exact (hG i ⟨i0, i1⟩).profF c j (hold i j i0 i1 h.1 h.2)
      · rfl
    · intro c m n m0 m1 n0 n1
      have key := someLoop (fun r : Results => r.coef c ((j * (s.ntor + 1) + n) * s.mpol + m)) (fun thread_id res =>
        let t := T thread_id
        let res := forRange t.r.nsMinH t.r.nsMaxH (gatherHalf s ns t) res
        let res := forRange t.r.nsMinF t.r.nsMaxFIncludingLcfs (gatherFull s lam t) res
        if thread_id = 0 then { res with currv := t.currv } else res) hn0 (fun t => ((T t).r.nsMinF ≤ j ∧ j < (T t).r.nsMaxFIncludingLcfs) ∧ c.on s = true) (G.coef c j m n) (by
          intro i r i0 i1
          dsimp only
          rw [apply_ite (fun r : Results => r.coef c ((j * (s.ntor + 1) + n) * s.mpol + m))]
          simp only [ite_self]
          rw [full_coef _ _ _ _ _ m0 m1 n0 n1, (half_rest (T i) _).2.1]
          split
          · rename_i h; exact (hG i ⟨i0, i1⟩).coef c j m n (hold i j i0 i1 h.1.1 h.1.2) m0 m1 n0 n1
          · rfl) Results.zero
      split
      · rename_i h; exact key.1 ⟨t, t0, t1, hf, h⟩
      · rename_i h; exact key.2 (fun i _ _ hw => h hw.2)
    · intro kl k0 k1
      refine ⟨?_, ?_, ?_⟩
      · intro c
        refine (someLoop (fun r : Results => r.gridF c (j * s.nZnT + kl)) _ hn0 (fun t => (T t).r.nsMinF ≤ j ∧ j < (T t).r.nsMaxFIncludingLcfs) (if c.on s = true then G.gridF c j kl else 0) ?_ Results.zero).1 hw
        intro i r i0 i1
        dsimp only
        rw [apply_ite (fun r : Results => r.gridF c (j * s.nZnT + kl))]
        simp only [ite_self]
        rw [full_gridF _ _ _ _ k0 k1, (half_rest (T i) _).2.2.1]
        split
        · rename_i h; rw [(hG i ⟨i0, i1⟩).gridF c j kl (hold i j i0 i1 h.1 h.2) k0 k1]
        · rfl
      · intro c
        refine (someLoop (fun r : Results => r.gridO c (j * s.nZnT + kl)) _ hn0 (fun t => (T t).r.nsMinF ≤ j ∧ j < (T t).r.nsMaxFIncludingLcfs) (G.gridO c j kl) ?_ Results.zero).1 hw
        intro i r i0 i1
        dsimp only
        rw [apply_ite (fun r : Results => r.gridO c (j * s.nZnT + kl))]
        simp only [ite_self]
        rw [full_gridO _ _ _ _ k0 k1, (half_rest (T i) _).2.2.2.1]
        split
        · rename_i h; rw [(hG i ⟨i0, i1⟩).gridO c j kl h.1 h.2 k0 k1]
        · rfl
      · refine (someLoop (fun r : Results => r.bsubvF (j * s.nZnT + kl)) _ hn0 (fun t => (T t).r.nsMinF ≤ j ∧ j < (T t).r.nsMaxFIncludingLcfs) (if j = 0 then G.blmn j kl else -(G.blmn j kl) / lam) ?_ Results.zero).1 hw
        intro i r i0 i1
        dsimp only
        rw [apply_ite (fun r : Results => r.bsubvF (j * s.nZnT + kl))]
        simp only [ite_self]
        rw [full_bsubvF _ _ _ k0 k1, (half_rest (T i) _).2.2.2.2.1]
        split
        · rename_i h
          have hb := (hG i ⟨i0, i1⟩).blmn j kl h.1 h.2 k0 k1
          unfold bsubvF
          rw [← hb]
          by_cases e : j = 0
          · subst e
            by_cases l : s.lasym = true ∧ kl.tmod s.nThetaEff < s.nThetaReduced
            · simp [l]
            · simp [if_neg l]
          · have : j > 0 := by omega
            by_cases l : s.lasym = true ∧ kl.tmod s.nThetaEff < s.nThetaReduced
            · simp only [if_pos l, if_neg e, if_pos this]; ring
            · simp only [if_neg l, if_neg e, if_pos this]; ring
        · rfl
  · have := forRange_inv hn0 (fun thread_id res =>
        let t := T thread_id
        let res := forRange t.r.nsMinH t.r.nsMaxH (gatherHalf s ns t) res
        let res := forRange t.r.nsMinF t.r.nsMaxFIncludingLcfs (gatherFull s lam t) res
        if thread_id = 0 then { res with currv := t.currv } else res) Results.zero (fun k (r : Results) => 0 < k → r.currv = (T 0).currv) (by intro h; omega) (by
          intro k r k0 k1 ih _
          dsimp only
          by_cases e : k = 0
          · rw [if_pos e, e]
          · rw [if_neg e, (full_rest (T k) _).2.2.2, (half_rest (T k) _).2.2.2.2.2.2]
            exact ih (by omega))
    exact this (by omega)

/-- two threads that hold their parts of some global quantities -/
example (s : Sizes.Sizes) (G : Global) (R : Int → Ranges) :
    ∃ T : Int → Piece, (fun t => (T t).r) = R ∧ ∀ t, isThread nt t → 0 < s.nZnT → 0 < s.mpol → 0 ≤ s.ntor → Holds s (T t) G := by
  refine ⟨fun t => { r := R t
                     profH := fun c i => G.profH c (i + (R t).nsMinH)
                     gridH := fun c i => G.gridH c (i / s.nZnT + (R t).nsMinH) (i % s.nZnT)
                     profF := fun c i => G.profF c (i + (R t).nsMinF1)
                     coef := fun c i => G.coef c (i / (s.ntor + 1) / s.mpol + (R t).nsMinF1) (i / (s.ntor + 1) % s.mpol) (i % (s.ntor + 1))
                     gridF := fun c i => G.gridF c (i / s.nZnT + (R t).nsMinF1) (i % s.nZnT)
                     gridO := fun c i => G.gridO c (i / s.nZnT + (R t).nsMinF) (i % s.nZnT)
                     blmn_e := fun i => G.blmn (i / s.nZnT + (R t).nsMinF) (i % s.nZnT)
                     blmn_asym_e := fun _ => 0
                     currv := 0 }, rfl, ?_⟩
  intro t _ hZ hm hn
  have d (N a b : Int) (hN : 0 < N) (b0 : 0 ≤ b) (b1 : b < N) : (a * N + b) / N = a ∧ (a * N + b) % N = b := by
    refine ⟨?_, ?_⟩
    · rw [add_comm, Int.add_mul_ediv_right _ _ hN.ne', Int.ediv_eq_zero_of_lt b0 b1, zero_add]
    · rw [add_comm, Int.add_mul_emod_self_right, Int.emod_eq_of_lt b0 b1]
  constructor
  · intro c j _; simp
  · intro c j kl _ k0 k1; simp only [(d s.nZnT _ kl hZ k0 k1).1, (d s.nZnT _ kl hZ k0 k1).2, sub_add_cancel]
  · intro c j _; simp
  · intro c j m n _ m0 m1 n0 n1
    simp only [(d (s.ntor + 1) _ n (by omega) n0 (by omega)).1, (d (s.ntor + 1) _ n (by omega) n0 (by omega)).2, (d s.mpol _ m hm m0 m1).1, (d s.mpol _ m hm m0 m1).2, sub_add_cancel]
  · intro c j kl _ k0 k1; simp only [(d s.nZnT _ kl hZ k0 k1).1, (d s.nZnT _ kl hZ k0 k1).2, sub_add_cancel]
  · intro c j kl _ _ k0 k1; simp only [(d s.nZnT _ kl hZ k0 k1).1, (d s.nZnT _ kl hZ k0 k1).2, sub_add_cancel]
  · intro j kl _ _ k0 k1; simp only [(d s.nZnT _ kl hZ k0 k1).1, (d s.nZnT _ kl hZ k0 k1).2, sub_add_cancel, ite_self, add_zero]

end Verif.Output
