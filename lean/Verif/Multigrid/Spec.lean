import Verif.Multigrid.Lemmas

namespace Verif.Multigrid
open Verif Verif.Coeffs Verif.Partition

variable {x : Setup} {lfreeb : Bool}

/-! ## scaling -/

/-- the factor `1/sqrt(s)` of the odd-m coefficients on surface `j` of a grid of `ns` surfaces; the axis
    uses the value of the first surface -/
noncomputable def oddScale (ns j m : Int) : ℝ :=
  if m % 2 = 0 then 1 else 1 / Real.sqrt ((max j 1 : Int) / ((ns : ℝ) - 1))

theorem oddScale_pos {ns j m : Int} (hns : 2 ≤ ns) : 0 < oddScale ns j m := by
  unfold oddScale
  split
  · exact one_pos
  · have h1 : (1 : ℝ) ≤ ((max j 1 : Int) : ℝ) := by exact_mod_cast le_max_right j 1
    have h2 : (2 : ℝ) ≤ ns := by exact_mod_cast hns
    apply one_div_pos.2
    apply Real.sqrt_pos.2
    apply div_pos <;> linarith

theorem tmod_two {m : Int} (hm : 0 ≤ m) : m.tmod 2 = m % 2 := Int.tmod_eq_emod_of_nonneg hm

theorem scalxc_eq (c : Ctx) (hns : 2 ≤ c.ns) {j m : Int} (hm : 0 ≤ m) (hj : c.nsMinF1 ≤ j) (hj0 : 0 ≤ j) :
    scalxc c ((j - c.nsMinF1) * 2 + m.tmod 2) = oddScale c.ns j m := by
  rw [tmod_two hm]
  have hr := Int.emod_two_eq_zero_or_one m
  have h0 : 0 ≤ (j - c.nsMinF1) * 2 + m % 2 := by omega
  unfold scalxc oddScale
  rw [tmod_two h0]
  have e1 : ((j - c.nsMinF1) * 2 + m % 2) % 2 = m % 2 := by omega
  rw [e1]
  split
  · rfl
  · rename_i hne
    have e2 : ((j - c.nsMinF1) * 2 + m % 2).tdiv 2 + c.nsMinF1 = j := by
      rw [Int.tdiv_eq_ediv_of_nonneg h0]; omega
    rw [e2]
    have hp : (0 : ℝ) < (c.ns : ℝ) - 1 := by
      have : (2 : ℝ) ≤ c.ns := by exact_mod_cast hns
      linarith
    congr 1
    rcases le_total j 1 with h | h
    · rw [max_eq_right h]
      push_cast
      apply max_eq_right
      apply Real.sqrt_le_sqrt
      apply div_le_div_of_nonneg_right _ hp.le
      exact_mod_cast h
    · rw [max_eq_left h]
      apply max_eq_left
      apply Real.sqrt_le_sqrt
      apply div_le_div_of_nonneg_right _ hp.le
      exact_mod_cast h

theorem decompose_col (c : Ctx) (sc : Int → ℝ) (src dst : State) (j m n : Int) (hj : c.nsMin ≤ j)
    (hj' : j < c.jMaxIncludingBoundary) (hm : 0 ≤ m) (hm' : m < c.mpol) (hn : 0 ≤ n) (hn' : n ≤ c.ntor)
    (f : F) (hf : c.has f = true) :
    decomposeInto c sc src dst f (c.idx j m n)
      = src f (c.idx j m n) * sc ((j - c.nsMinF1) * 2 + m.tmod 2) := by
  have h := grid3 (lo := c.nsMin) (hi := c.jMaxIncludingBoundary) (j0 := c.nsMin) (mpol := c.mpol)
    (ntor := c.ntor) (mlo := 0) (mhi := c.mpol) (nlo := 0) (nhi := c.ntor + 1) (by omega) (by omega)
    (by omega) (by omega)
    (fun j m n s => if j < c.jMaxIncludingBoundary then decomposeBody c sc src j m n s else s)
    (fun j m n v f => if j < c.jMaxIncludingBoundary ∧ c.has f
      then src f (c.idx j m n) * sc ((j - c.nsMinF1) * 2 + m.tmod 2) else v f)
    (fun j m n s i => by
      by_cases hj : j < c.jMaxIncludingBoundary
      · simp only [hj, if_true, true_and]
        rw [decomposeBody_col c sc src j m n s i hj]
        have e : c.idx j m n = fcIdx c.nsMin c.mpol c.ntor j m n := rfl
        by_cases hi : i = c.idx j m n
        · rw [if_pos hi, if_pos (hi.trans e), hi]
        · rw [if_neg hi, if_neg (fun h => hi (h.trans e.symm))]
      · simp [hj]) dst j m n hm hm' hn hn'
  have h2 := congrFun h f
  beta_reduce at h2
  rw [if_pos ⟨⟨hj, hj'⟩, ⟨hm, hm'⟩, hn, by omega⟩, if_pos ⟨hj', hf⟩] at h2
  rw [← h2]
  unfold decomposeInto
  refine congrFun (congrFun (forRange_congr _ _ _ ?_) f) _
  intro j' s k1 k2
  simp only [k2, if_true]

/-- all threads of a team agree on the coefficients: every copy of coefficient `(m, n)` of array `c` on
    surface `j` has the value `G c j m n` -/
def Holds (nt : Int) (R : Int → Ranges) (mpol ntor : Int) (has : F → Bool) (s : Store)
    (G : F → Int → Int → Int → ℝ) : Prop :=
  ∀ t j m n c, isThread nt t → holds (R t) j → (0 ≤ m ∧ m < mpol) ∧ 0 ≤ n ∧ n ≤ ntor → has c = true →
    s (t, c, fcIdx (R t).nsMinF1 mpol ntor j m n) = G c j m n

theorem scaled_holds (h : x.Good lfreeb) (dec fresh : Store) (G : F → Int → Int → Int → ℝ)
    (hG : Holds x.nt_old x.rOld x.mpol x.ntor (x.ctxOld 0).has dec G) :
    Holds x.nt_old x.rOld x.mpol x.ntor (x.ctxOld 0).has (scaledOld x dec fresh)
      (fun c j m n => G c j m n * oddScale x.ns_old j m) := by
  intro t j m n c ht hj hm hc
  have hc' : (x.ctxOld t).has c = true := by rw [has_old x t 0, ← has_old x 0 0]; exact hc
  have hr := holds_range h.old ht hj
  have h1 := decompose_col (x.ctxOld t) (scalxc (x.ctxOld t)) (fun c i => dec (t, c, i))
    (fun c i => fresh (t, c, i)) j m n hj.1 (by
      have e : (x.ctxOld t).jMaxIncludingBoundary = (x.rOld t).nsMaxF1 := by
        unfold Ctx.jMaxIncludingBoundary
        show (if (x.rOld t).nsMaxF1 = x.ns_old then x.ns_old else (x.rOld t).nsMaxF1) = _
        split <;> simp_all
      rw [e]; exact hj.2) hm.1.1 hm.1.2 hm.2.1 hm.2.2 c hc'
  have h2 := scalxc_eq (x.ctxOld t) (by have := h.old.2.1; show 2 ≤ x.ns_old; omega) hm.1.1 hj.1 hr.1
  have h3 := hG t j m n c ht hj hm hc
  show decomposeInto (x.ctxOld t) (scalxc (x.ctxOld t)) (fun c i => dec (t, c, i))
    (fun c i => fresh (t, c, i)) c ((x.ctxOld t).idx j m n) = _
  rw [h1, h2]
  show dec (t, c, fcIdx (x.rOld t).nsMinF1 x.mpol x.ntor j m n) * _ = _
  rw [h3]
  rfl

/-! ## the axis -/

/-- entry of an odd-m coefficient on the axis -/
def oddAxis (x : Setup) (k : Key) : Prop :=
  ∃ m, (1 ≤ m ∧ m < x.mpol) ∧ m.tmod 2 = 1 ∧ ∃ n, (0 ≤ n ∧ n < x.ntor + 1) ∧
    ∃ c ∈ members x.lthreed x.lasym, k = (0, c, fcIdx 0 x.mpol x.ntor 0 m n)

theorem idx0_old (h : x.Good lfreeb) (m n : Int) : (x.ctxOld 0).idx 0 m n = fcIdx 0 x.mpol x.ntor 0 m n := by
  have ht : isThread x.nt_old 0 := ⟨le_refl _, h.old.1⟩
  obtain ⟨a1, a2, a3, a4, a5, a6, a7, a8⟩ := team_shape h.old ht
  have := a7 rfl
  have e : (x.rOld 0).nsMinF1 = 0 := by omega
  unfold Ctx.idx
  show fcIdx (x.rOld 0).nsMinF1 _ _ _ _ _ = _
  rw [e]; rfl

theorem idx0_new (h : x.Good lfreeb) (m n : Int) : (x.ctxNew 0).idx 0 m n = fcIdx 0 x.mpol x.ntor 0 m n := by
  have ht : isThread x.nt_new 0 := ⟨le_refl _, h.new.1⟩
  obtain ⟨a1, a2, a3, a4, a5, a6, a7, a8⟩ := team_shape h.new ht
  have := a7 rfl
  have e : (x.rNew 0).nsMinF1 = 0 := by omega
  unfold Ctx.idx
  show fcIdx (x.rNew 0).nsMinF1 _ _ _ _ _ = _
  rw [e]; rfl

/-- an entry of a surface is an odd-m axis entry exactly if it says so -/
theorem oddAxis_iff {nt ns : Int} {R : Int → Ranges} (hT : GoodTeam nt ns lfreeb R) {t j m n : Int} {c : F}
    (ht : isThread nt t) (hj : holds (R t) j) (hm : x.isMode m n) (hc : c ∈ members x.lthreed x.lasym) :
    oddAxis x (t, c, fcIdx (R t).nsMinF1 x.mpol x.ntor j m n) ↔ j = 0 ∧ m % 2 = 1 := by
  obtain ⟨a1, a2, a3, a4, a5, a6, a7, a8⟩ := team_shape hT ht
  constructor
  · rintro ⟨m', hm', hodd, n', hn', c', hc', e⟩
    simp only [Prod.mk.injEq] at e
    obtain ⟨e1, e2, e3⟩ := e
    have : (R t).nsMinF1 = 0 := by have := a7 e1; omega
    rw [this] at e3
    obtain ⟨k1, k2, k3⟩ := fcIdx_inj hm.1.1 hm.1.2 hm.2.1 hm.2.2 (by omega) (by omega) hn'.1 (by omega) e3
    subst k2
    exact ⟨k1, by rw [← tmod_two hm.1.1]; exact hodd⟩
  · rintro ⟨rfl, hodd⟩
    have h0 := (axis_holder hT ht).1 hj
    have : (R t).nsMinF1 = 0 := by have := a7 h0; omega
    rw [this, h0]
    exact ⟨m, ⟨by have := hm.1.1; omega, hm.1.2⟩, by rw [tmod_two hm.1.1]; exact hodd, n,
      ⟨hm.2.1, by have := hm.2.2; omega⟩, c, hc, rfl⟩

theorem extrapolate_holds (h : x.Good lfreeb) (s0 : Store) (G : F → Int → Int → Int → ℝ)
    (hG : Holds x.nt_old x.rOld x.mpol x.ntor (x.ctxOld 0).has s0 G) :
    ∃ s, extrapolateAxis x s0 = .ok s ∧
      Holds x.nt_old x.rOld x.mpol x.ntor (x.ctxOld 0).has s
        (fun c j m n => if j = 0 ∧ m % 2 = 1 then 2 * G c 1 m n - G c 2 m n else G c j m n) := by
  have hns := h.old.2.1
  have z0 := threadWith_zero h
  have hasmem : ∀ c, c ∈ members x.lthreed x.lasym ↔ (x.ctxOld 0).has c = true := by
    intro c; rw [mem_members x 0, has_old x 0 0]
  have main : Assigns (fun s => ∀ k, ¬ oddAxis x k → s k = s0 k) (oddAxis x)
      (fun k v => ∃ m n c, x.isMode m n ∧ c ∈ members x.lthreed x.lasym ∧
        k = (0, c, fcIdx 0 x.mpol x.ntor 0 m n) ∧ v = 2 * G c 1 m n - G c 2 m n)
      (extrapolateAxis x) := by
    refine Assigns.loop (P := fun m k => m.tmod 2 = 1 ∧ ∃ n, (0 ≤ n ∧ n < x.ntor + 1) ∧
      ∃ c ∈ members x.lthreed x.lasym, k = (0, c, fcIdx 0 x.mpol x.ntor 0 m n)) (fun m hm hm' => ?_)
    refine Assigns.ite (fun hodd => ?_)
    refine Assigns.loop (fun n hn hn' => ?_)
    refine Assigns.list _ (fun c hc => ?_)
    intro s hs
    have hmode : x.isMode m n := ⟨⟨by omega, hm'⟩, hn, by omega⟩
    have hmode' : (0 ≤ m ∧ m < x.mpol) ∧ 0 ≤ n ∧ n ≤ x.ntor := hmode
    obtain ⟨t1, j1⟩ := threadWith_spec h (j := 1) (by omega) (by omega)
    obtain ⟨t2, j2⟩ := threadWith_spec h (j := 2) (by omega) (by omega)
    have ht0 : isThread x.nt_old 0 := ⟨le_refl _, h.old.1⟩
    have r1 := rd_ok (nt := x.nt_old) (ctx := x.ctxOld) s c t1 (idx_old j1 hmode)
    have r2 := rd_ok (nt := x.nt_old) (ctx := x.ctxOld) s c t2 (idx_old j2 hmode)
    have w := fun v => wr_ok (nt := x.nt_old) (ctx := x.ctxOld) s c (i := (x.ctxOld 0).idx 0 m n) v ht0
      (idx_old ((axis_holder h.old ht0).2 rfl) hmode)
    have e1 : s (x.threadWith 1, c, (x.ctxOld (x.threadWith 1)).idx 1 m n) = G c 1 m n := by
      rw [hs _ (fun hk => by
        have := (oddAxis_iff h.old t1 j1 hmode hc).1 hk; omega)]
      exact hG _ 1 m n c t1 j1 hmode ((hasmem c).1 hc)
    have e2 : s (x.threadWith 2, c, (x.ctxOld (x.threadWith 2)).idx 2 m n) = G c 2 m n := by
      rw [hs _ (fun hk => by
        have := (oddAxis_iff h.old t2 j2 hmode hc).1 hk; omega)]
      exact hG _ 2 m n c t2 j2 hmode ((hasmem c).1 hc)
    have hk0 : oddAxis x (0, c, fcIdx 0 x.mpol x.ntor 0 m n) :=
      ⟨m, ⟨hm, hm'⟩, hodd, n, ⟨hn, hn'⟩, c, hc, rfl⟩
    refine ⟨fun k => if k = (0, c, fcIdx 0 x.mpol x.ntor 0 m n) then 2 * G c 1 m n - G c 2 m n else s k,
      ?_, ?_, ?_, ?_⟩
    · unfold axisAssign
      rw [z0]
      dsimp only
      rw [r1, Outcome.bind_ok, r2, Outcome.bind_ok, w, e1, e2, idx0_old h]
    · intro k hk
      beta_reduce
      rw [if_neg (fun e : k = _ => hk (e ▸ hk0))]
      exact hs k hk
    · intro k hk
      beta_reduce
      rw [if_pos hk]
      exact ⟨m, n, c, hmode, hc, hk, rfl⟩
    · intro k hk
      beta_reduce
      rw [if_neg hk]
  obtain ⟨s, r1, r2, r3, r4⟩ := main s0 (fun _ _ => rfl)
  refine ⟨s, r1, ?_⟩
  intro t j m n c ht hj hm hc
  have hm' : x.isMode m n := hm
  have hc' := (hasmem c).2 hc
  have hiff := oddAxis_iff h.old ht hj hm' hc'
  beta_reduce
  by_cases hk : oddAxis x (t, c, fcIdx (x.rOld t).nsMinF1 x.mpol x.ntor j m n)
  · rw [if_pos (hiff.1 hk)]
    obtain ⟨m', n', c', hm2, _, e, ev⟩ := r3 _ hk
    rw [ev]
    simp only [Prod.mk.injEq] at e
    obtain ⟨e1, e2, e3⟩ := e
    obtain ⟨a1, a2, a3, a4, a5, a6, a7, a8⟩ := team_shape h.old ht
    have : (x.rOld t).nsMinF1 = 0 := by have := a7 e1; omega
    rw [this] at e3
    obtain ⟨k1, k2, k3⟩ := fcIdx_inj hm'.1.1 hm'.1.2 hm'.2.1 hm'.2.2 hm2.1.1 hm2.1.2 hm2.2.1 hm2.2.2 e3
    rw [e2, k2, k3]
  · rw [if_neg (fun e => hk (hiff.2 e)), r4 _ hk]
    exact hG t j m n c ht hj hm hc

/-! ## the interpolation -/

/-- the stencil stays on the old grid -/
def Stencil.Within (st : Stencil) (ns : Int) : Prop :=
  0 ≤ st.size ∧ ∀ k, 0 ≤ k → k < st.size → 0 ≤ st.at_ k ∧ st.at_ k < ns

theorem stencilSum_eq (h : x.Good lfreeb) (s : Store) (G : F → Int → Int → Int → ℝ)
    (hG : Holds x.nt_old x.rOld x.mpol x.ntor (x.ctxOld 0).has s G) (st : Stencil)
    (hst : st.Within x.ns_old) (c : F) (hc : (x.ctxOld 0).has c = true) {m n : Int} (hm : x.isMode m n) :
    stencilSum x s st c m n = .ok (∑ k ∈ Finset.Ico 0 st.size, st.weight k * G c (st.at_ k) m n) := by
  unfold stencilSum
  obtain ⟨v, h1, h2⟩ := forRangeM_inv (lo := 0) (hi := st.size) hst.1 (fun k (value : ℝ) => do
    let t := x.sourceThread (st.at_ k)
    let v ← rd x.nt_old x.ctxOld s t c ((x.ctxOld t).idx (st.at_ k) m n)
    .ok (value + st.weight k * v)) (0 : ℝ)
    (fun (j : Int) (v : ℝ) => v = ∑ k ∈ Finset.Ico 0 j, st.weight k * G c (st.at_ k) m n) (by simp)
    (by
      intro k v k0 k1 ih
      obtain ⟨b0, b1⟩ := hst.2 k k0 k1
      obtain ⟨ht, hh⟩ := sourceThread_spec h b0 b1
      dsimp only
      rw [rd_ok s c ht (idx_old hh hm), Outcome.bind_ok]
      refine ⟨_, rfl, ?_⟩
      rw [sum_Ico_int_succ k0, ih]
      have : s (x.sourceThread (st.at_ k), c, (x.ctxOld (x.sourceThread (st.at_ k))).idx (st.at_ k) m n)
          = G c (st.at_ k) m n := hG _ _ m n c ht hh hm hc
      rw [this])
  rw [h1, h2]

theorem interpolate_holds (h : x.Good lfreeb) (s s0 : Store) (G : F → Int → Int → Int → ℝ)
    (hG : Holds x.nt_old x.rOld x.mpol x.ntor (x.ctxOld 0).has s G)
    (hst : ∀ j, 0 ≤ j → j < x.ns_new → (stencil x.scheme x.ns_old x.ns_new j).Within x.ns_old) :
    ∃ s', interpolate x s s0 = .ok s' ∧
      Holds x.nt_new x.rNew x.mpol x.ntor (x.ctxNew 0).has s' (fun c j m n =>
        (∑ k ∈ Finset.Ico 0 (stencil x.scheme x.ns_old x.ns_new j).size,
          (stencil x.scheme x.ns_old x.ns_new j).weight k *
            G c ((stencil x.scheme x.ns_old x.ns_new j).at_ k) m n) / oddScale x.ns_new j m) := by
  have main : Assigns (fun _ => True)
      (fun k => ∃ t, (0 ≤ t ∧ t < x.nt_new) ∧ ∃ j, ((x.rNew t).nsMinF1 ≤ j ∧ j < (x.rNew t).nsMaxF1) ∧
        ∃ m, (0 ≤ m ∧ m < x.mpol) ∧ ∃ n, (0 ≤ n ∧ n < x.ntor + 1) ∧
        ∃ c ∈ members x.lthreed x.lasym, k = (t, c, fcIdx (x.rNew t).nsMinF1 x.mpol x.ntor j m n))
      (fun k v => ∃ t j m n c, x.isMode m n ∧ holds (x.rNew t) j ∧
        k = (t, c, fcIdx (x.rNew t).nsMinF1 x.mpol x.ntor j m n) ∧
        v = (∑ k ∈ Finset.Ico 0 (stencil x.scheme x.ns_old x.ns_new j).size,
          (stencil x.scheme x.ns_old x.ns_new j).weight k *
            G c ((stencil x.scheme x.ns_old x.ns_new j).at_ k) m n) / oddScale x.ns_new j m)
      (interpolate x s) := by
    refine Assigns.loop (fun t ht ht' => ?_)
    refine Assigns.loop (fun j hj hj' => ?_)
    refine Assigns.loop (fun m hm hm' => ?_)
    refine Assigns.loop (fun n hn hn' => ?_)
    refine Assigns.list _ (fun c hc => ?_)
    intro r _
    have hmode : x.isMode m n := ⟨⟨hm, hm'⟩, hn, by omega⟩
    have hth : isThread x.nt_new t := ⟨ht, ht'⟩
    have hh : holds (x.rNew t) j := ⟨hj, hj'⟩
    have hr := holds_range h.new hth hh
    have hc' : (x.ctxOld 0).has c = true := by rw [has_old x 0 0, ← mem_members]; exact hc
    have hsc := scalxc_eq (x.ctxNew t) (by have := h.new.2.1; show 2 ≤ x.ns_new; omega) hm hj hr.1
    refine ⟨fun k => if k = (t, c, fcIdx (x.rNew t).nsMinF1 x.mpol x.ntor j m n) then
        (∑ k ∈ Finset.Ico 0 (stencil x.scheme x.ns_old x.ns_new j).size,
          (stencil x.scheme x.ns_old x.ns_new j).weight k *
            G c ((stencil x.scheme x.ns_old x.ns_new j).at_ k) m n) / oddScale x.ns_new j m else r k,
      ?_, trivial, ?_, ?_⟩
    · unfold interpAssign
      dsimp only
      rw [stencilSum_eq h s G hG _ (hst j hr.1 hr.2) c hc' hmode, Outcome.bind_ok,
        wr_ok r c _ hth (idx_new hh hmode), show (x.rNew t).nsMinF1 = (x.ctxNew t).nsMinF1 from rfl, hsc]
      rfl
    · intro k hk
      beta_reduce
      rw [if_pos hk]
      exact ⟨t, j, m, n, c, hmode, hh, hk, rfl⟩
    · intro k hk
      beta_reduce
      rw [if_neg hk]
  obtain ⟨s', r1, -, r3, r4⟩ := main s0 trivial
  refine ⟨s', r1, ?_⟩
  intro t j m n c ht hj hm hc
  obtain ⟨t', j', m', n', c', hm2, hj2, e, ev⟩ := r3 (t, c, fcIdx (x.rNew t).nsMinF1 x.mpol x.ntor j m n)
    ⟨t, ht, j, hj, m, hm.1, n, ⟨hm.2.1, by have := hm.2.2; omega⟩, c, (mem_members x 0 c).2 hc, rfl⟩
  rw [ev]
  simp only [Prod.mk.injEq] at e
  obtain ⟨rfl, rfl, e3⟩ := e
  obtain ⟨rfl, rfl, rfl⟩ := fcIdx_inj hm.1.1 hm.1.2 hm.2.1 hm.2.2 hm2.1.1 hm2.1.2 hm2.2.1 hm2.2.2 e3
  rfl

theorem zeroAxis_holds (h : x.Good lfreeb) (s0 : Store) (G : F → Int → Int → Int → ℝ)
    (hG : Holds x.nt_new x.rNew x.mpol x.ntor (x.ctxNew 0).has s0 G) :
    ∃ s, zeroAxis x s0 = .ok s ∧
      Holds x.nt_new x.rNew x.mpol x.ntor (x.ctxNew 0).has s
        (fun c j m n => if j = 0 ∧ m % 2 = 1 then 0 else G c j m n) := by
  have z0 := threadWith_zero h
  have main : Assigns (fun _ => True) (oddAxis x) (fun _ v => v = 0) (zeroAxis x) := by
    refine Assigns.loop (P := fun m k => m.tmod 2 = 1 ∧ ∃ n, (0 ≤ n ∧ n < x.ntor + 1) ∧
      ∃ c ∈ members x.lthreed x.lasym, k = (0, c, fcIdx 0 x.mpol x.ntor 0 m n)) (fun m hm hm' => ?_)
    refine Assigns.ite (fun hodd => ?_)
    refine Assigns.loop (fun n hn hn' => ?_)
    refine Assigns.list _ (fun c hc => ?_)
    intro s _
    have hmode : x.isMode m n := ⟨⟨by omega, hm'⟩, hn, by omega⟩
    have ht0 : isThread x.nt_new 0 := ⟨le_refl _, h.new.1⟩
    refine ⟨fun k => if k = (0, c, fcIdx 0 x.mpol x.ntor 0 m n) then 0 else s k, ?_, trivial, ?_, ?_⟩
    · unfold zeroAssign
      rw [z0]
      dsimp only
      rw [idx0_old h, ← idx0_new h, wr_ok s c 0 ht0 (idx_new ((axis_holder h.new ht0).2 rfl) hmode), idx0_new h]
    · intro k hk
      beta_reduce
      rw [if_pos hk]
    · intro k hk
      beta_reduce
      rw [if_neg hk]
  obtain ⟨s, r1, -, r3, r4⟩ := main s0 trivial
  refine ⟨s, r1, ?_⟩
  intro t j m n c ht hj hm hc
  have hm' : x.isMode m n := hm
  have hiff := oddAxis_iff h.new ht hj hm' ((mem_members x 0 c).2 hc)
  beta_reduce
  by_cases hk : oddAxis x (t, c, fcIdx (x.rNew t).nsMinF1 x.mpol x.ntor j m n)
  · rw [if_pos (hiff.1 hk)]; exact r3 _ hk
  · rw [if_neg (fun e => hk (hiff.2 e)), r4 _ hk]
    exact hG t j m n c ht hj hm hc

end Verif.Multigrid
