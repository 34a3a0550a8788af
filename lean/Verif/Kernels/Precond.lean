import Verif.Kernels.Force
import Verif.Kernels.ModelB

/-!
# Preconditioners, constraint multiplier, force balance on the window of a thread
-/
namespace Verif.Kernels
open Verif Verif.Partition Finset

variable {c : Ctx} {r : Ranges} {lfreeb : Bool} {H : Int → Int → Half} {half : Vec Half}
  {X : Int → Int → Geo} {geo : Vec Geo} {sqrtSH sqrtSF : Vec ℝ} {qH qF : Int → ℝ}

/-! ## lambda preconditioner -/

/-- half-grid sums of a surface -/
noncomputable def lamSum (c : Ctx) (H : Int → Half) : Lam3 :=
  ⟨∑ kl ∈ Ico 0 c.nZnT, (H kl).guu / (H kl).gsqrt * wt c kl,
    if c.lthreed then ∑ kl ∈ Ico 0 c.nZnT, (H kl).guv / (H kl).gsqrt * wt c kl else 0,
    ∑ kl ∈ Ico 0 c.nZnT, (H kl).gvv / (H kl).gsqrt * wt c kl⟩

theorem lamSums_ok (hc : GoodCtx c) (hr : Good c.ns lfreeb r) (hh : Holds half r.nsMinH r.nsMaxH c.nZnT H)
    {a : Vec Lam3} {N : Int} {A : Int → Lam3} (hN : r.nsMaxH - r.nsMinH < N) (ha : Full a N A) :
    ∃ a', lambdaSums c r half a = .ok a' ∧ Full a' N
      (fun i => if 1 ≤ i ∧ i < r.nsMaxH + 1 - r.nsMinH then lamSum c (H (i - 1 + r.nsMinH)) else A i) := by
  obtain ⟨w1, w2, w3⟩ := hr.window
  unfold lambdaSums
  obtain ⟨a', e, h'⟩ := forRangeM_inv (lo := r.nsMinH) (hi := r.nsMaxH) w3 (fun jH a => do
    let a ← a.set (jH + 1 - r.nsMinH) ⟨0, 0, 0⟩
    let a ← forRangeM 0 c.nZnT (fun kl a => do
      let h ← half.get ((jH - r.nsMinH) * c.nZnT + kl)
      let w ← weight c kl
      let x ← a.get (jH + 1 - r.nsMinH)
      a.set (jH + 1 - r.nsMinH) { x with b := x.b + h.guu / h.gsqrt * w, c := x.c + h.gvv / h.gsqrt * w }) a
    if c.lthreed then
      forRangeM 0 c.nZnT (fun kl a => do
        let h ← half.get ((jH - r.nsMinH) * c.nZnT + kl)
        let w ← weight c kl
        let x ← a.get (jH + 1 - r.nsMinH)
        a.set (jH + 1 - r.nsMinH) { x with d := x.d + h.guv / h.gsqrt * w }) a
    else .ok a) a
    (fun (k : Int) (a : Vec Lam3) => Full a N
      (fun i => if 1 ≤ i ∧ i < k + 1 - r.nsMinH then lamSum c (H (i - 1 + r.nsMinH)) else A i))
    (ha.congr fun i _ _ => by rw [if_neg (by omega)])
    (by
      intro k a b1 b2 ha
      have i0 : 0 ≤ k + 1 - r.nsMinH := by omega
      have i1 : k + 1 - r.nsMinH < N := by omega
      obtain ⟨u0, e0, h0⟩ := ha.set i0 i1 (⟨0, 0, 0⟩ : Lam3)
      beta_reduce
      rw [e0]
      dsimp only [Outcome.bind_ok]
      obtain ⟨u1, e1, h1⟩ := forRangeM_inv (lo := 0) (hi := c.nZnT) hc.points (fun kl (a : Vec Lam3) => do
          let h ← half.get ((k - r.nsMinH) * c.nZnT + kl)
          let w ← weight c kl
          let x ← a.get (k + 1 - r.nsMinH)
          a.set (k + 1 - r.nsMinH) ({ x with b := x.b + h.guu / h.gsqrt * w, c := x.c + h.gvv / h.gsqrt * w } : Lam3)) u0
        (fun (m : Int) (a : Vec Lam3) => Full a N (fun i => if i = k + 1 - r.nsMinH then
            ⟨∑ kl ∈ Ico 0 m, (H k kl).guu / (H k kl).gsqrt * wt c kl, 0,
              ∑ kl ∈ Ico 0 m, (H k kl).gvv / (H k kl).gsqrt * wt c kl⟩
          else if 1 ≤ i ∧ i < k + 1 - r.nsMinH then lamSum c (H (i - 1 + r.nsMinH)) else A i))
        (h0.congr fun i _ _ => by simp)
        (by
          intro m a m1 m2 ha
          beta_reduce
          rw [hh.get b1 b2 m1 m2, weight_ok hc m1, ha.get i0 i1, if_pos rfl]
          dsimp only [Outcome.bind_ok]
          obtain ⟨u, eu, hu⟩ := ha.set i0 i1 (⟨(∑ kl ∈ Ico 0 m, (H k kl).guu / (H k kl).gsqrt * wt c kl) +
            (H k m).guu / (H k m).gsqrt * wt c m, 0, (∑ kl ∈ Ico 0 m, (H k kl).gvv / (H k kl).gsqrt * wt c kl) +
            (H k m).gvv / (H k m).gsqrt * wt c m⟩ : Lam3)
          rw [eu]
          refine ⟨u, rfl, hu.congr fun i _ _ => ?_⟩
          by_cases e : i = k + 1 - r.nsMinH
          · rw [if_pos e, if_pos e, sum_Ico_int_succ m1, sum_Ico_int_succ m1]
          · rw [if_neg e, if_neg e, if_neg e])
      rw [e1]
      dsimp only [Outcome.bind_ok]
      have fin : ∀ {u : Vec Lam3} {d : ℝ}, (d = if c.lthreed then ∑ kl ∈ Ico 0 c.nZnT, (H k kl).guv / (H k kl).gsqrt * wt c kl else 0) →
          Full u N (fun i => if i = k + 1 - r.nsMinH then
            ⟨∑ kl ∈ Ico 0 c.nZnT, (H k kl).guu / (H k kl).gsqrt * wt c kl, d,
              ∑ kl ∈ Ico 0 c.nZnT, (H k kl).gvv / (H k kl).gsqrt * wt c kl⟩
            else if 1 ≤ i ∧ i < k + 1 - r.nsMinH then lamSum c (H (i - 1 + r.nsMinH)) else A i) →
          Full u N (fun i => if 1 ≤ i ∧ i < k + 1 + 1 - r.nsMinH then lamSum c (H (i - 1 + r.nsMinH)) else A i) := by
        intro u d hd hu
        refine hu.congr fun i _ _ => ?_
        by_cases e : i = k + 1 - r.nsMinH
        · rw [if_pos e, if_pos (by omega), show i - 1 + r.nsMinH = k by omega, hd]; rfl
        · rw [if_neg e]
          by_cases e2 : 1 ≤ i ∧ i < k + 1 - r.nsMinH
          · rw [if_pos e2, if_pos (by omega)]
          · rw [if_neg e2, if_neg (by omega)]
      by_cases h3 : c.lthreed
      · rw [if_pos h3]
        obtain ⟨u2, e2, h2⟩ := forRangeM_inv (lo := 0) (hi := c.nZnT) hc.points (fun kl (a : Vec Lam3) => do
            let h ← half.get ((k - r.nsMinH) * c.nZnT + kl)
            let w ← weight c kl
            let x ← a.get (k + 1 - r.nsMinH)
            a.set (k + 1 - r.nsMinH) ({ x with d := x.d + h.guv / h.gsqrt * w } : Lam3)) u1
          (fun (m : Int) (a : Vec Lam3) => Full a N (fun i => if i = k + 1 - r.nsMinH then
              ⟨∑ kl ∈ Ico 0 c.nZnT, (H k kl).guu / (H k kl).gsqrt * wt c kl,
                ∑ kl ∈ Ico 0 m, (H k kl).guv / (H k kl).gsqrt * wt c kl,
                ∑ kl ∈ Ico 0 c.nZnT, (H k kl).gvv / (H k kl).gsqrt * wt c kl⟩
            else if 1 ≤ i ∧ i < k + 1 - r.nsMinH then lamSum c (H (i - 1 + r.nsMinH)) else A i))
          (h1.congr fun i _ _ => by simp)
          (by
            intro m a m1 m2 ha
            beta_reduce
            rw [hh.get b1 b2 m1 m2, weight_ok hc m1, ha.get i0 i1, if_pos rfl]
            dsimp only [Outcome.bind_ok]
            obtain ⟨u, eu, hu⟩ := ha.set i0 i1 (⟨∑ kl ∈ Ico 0 c.nZnT, (H k kl).guu / (H k kl).gsqrt * wt c kl,
              (∑ kl ∈ Ico 0 m, (H k kl).guv / (H k kl).gsqrt * wt c kl) + (H k m).guv / (H k m).gsqrt * wt c m,
              ∑ kl ∈ Ico 0 c.nZnT, (H k kl).gvv / (H k kl).gsqrt * wt c kl⟩ : Lam3)
            rw [eu]
            refine ⟨u, rfl, hu.congr fun i _ _ => ?_⟩
            by_cases e : i = k + 1 - r.nsMinH
            · rw [if_pos e, if_pos e, sum_Ico_int_succ m1]
            · rw [if_neg e, if_neg e, if_neg e])
        exact ⟨u2, e2, fin (by rw [if_pos h3]) h2⟩
      · rw [if_neg h3]
        exact ⟨u1, rfl, fin (by rw [if_neg h3]) h1⟩)
  exact ⟨a', e, h'⟩

/-- average of two entries -/
noncomputable def Lam3.avg (o i : Lam3) : Lam3 := ⟨0.5 * (o.b + i.b), 0.5 * (o.d + i.d), 0.5 * (o.c + i.c)⟩

/-- full-grid values of a surface: the axis takes the first half-grid value -/
noncomputable def lamFull (c : Ctx) (H : Int → Int → Half) (j : Int) : Lam3 :=
  if j = 0 then lamSum c (H 0)
  else Lam3.avg (if j < c.ns - 1 then lamSum c (H j) else ⟨0, 0, 0⟩) (lamSum c (H (j - 1)))

/-- the extra slot of the work arrays that lies beyond the last half-grid point is zero -/
def SlotZero (c : Ctx) (r : Ranges) (a : Vec Lam3) : Prop :=
  a.size = r.nsMaxF1 - r.nsMinF1 + 1 ∧ (r.nsMaxF1 = c.ns → a.val (c.ns - r.nsMinH) = ⟨0, 0, 0⟩)

theorem averages_ok (hc : GoodCtx c) (hr : Good c.ns lfreeb r) (hh : Holds half r.nsMinH r.nsMaxH c.nZnT H)
    {a : Vec Lam3} (ha : SlotZero c r a) :
    ∃ a1 a2, lambdaSums c r half a = .ok a1 ∧ lambdaAverages r a1 = .ok a2 ∧ SlotZero c r a2 ∧
      ∀ j, r.nsMinF ≤ j → j < r.nsMaxFIncludingLcfs → a2.get (j - r.nsMinF) = .ok (lamFull c H j) := by
  have h := hr
  obtain ⟨a1, a2, a3, a4, a5, a6, a7, a8, a9, a10, a11, a12⟩ := h
  have hd := hr.dist
  have hl : r.nsMaxFIncludingLcfs ≤ r.nsMaxF1 ∧ r.nsMinF + 2 ≤ r.nsMaxFIncludingLcfs ∧
      (r.nsMaxF1 < c.ns → r.nsMaxFIncludingLcfs = r.nsMaxF) ∧ (r.nsMaxF1 = c.ns → r.nsMaxFIncludingLcfs = c.ns) := by
    rw [a11]; split <;> omega
  obtain ⟨l1, l2, l3, l4⟩ := hl
  obtain ⟨s, es, hs⟩ := lamSums_ok hc hr hh (A := a.val) (N := r.nsMaxF1 - r.nsMinF1 + 1) (by omega) ⟨ha.1, fun _ _ _ => rfl⟩
  refine ⟨s, ?_⟩
  -- the copy at the axis
  obtain ⟨t, et, ht⟩ : ∃ t, lambdaAxis r s = .ok t ∧ Full t (r.nsMaxF1 - r.nsMinF1 + 1)
      (fun i => if r.nsMinF = 0 ∧ i = 0 then lamSum c (H 0) else
        if 1 ≤ i ∧ i < r.nsMaxH + 1 - r.nsMinH then lamSum c (H (i - 1 + r.nsMinH)) else a.val i) := by
    unfold lambdaAxis
    by_cases h : r.nsMinF = 0
    · rw [if_pos h, hs.get (by omega) (by omega), if_pos (by omega)]
      dsimp only [Outcome.bind_ok]
      obtain ⟨t, e, ht⟩ := hs.set (kl := 0) (le_refl _) (by omega) (lamSum c (H (1 - 1 + r.nsMinH)))
      refine ⟨t, e, ht.congr fun i _ _ => ?_⟩
      by_cases e : i = 0
      · rw [if_pos e, if_pos ⟨h, e⟩, show (1 : Int) - 1 + r.nsMinH = 0 by omega]
      · rw [if_neg e, if_neg (show ¬(r.nsMinF = 0 ∧ i = 0) from fun x => e x.2)]
    · rw [if_neg h]
      exact ⟨s, rfl, hs.congr fun i _ _ => by rw [if_neg (show ¬(r.nsMinF = 0 ∧ i = 0) from fun x => h x.1)]⟩
  have jm : max (if r.nsMinF = 0 then (1 : Int) else 0) r.nsMinF = max 1 r.nsMinF := by
    split <;> omega
  have value : ∀ k, max 1 r.nsMinF ≤ k → k < r.nsMaxFIncludingLcfs →
      (t.val (k + 1 - r.nsMinH)).avg (t.val (k - r.nsMinH)) = lamFull c H k := by
    intro k k1 k2
    rw [ht.2 _ (by omega) (by omega), ht.2 _ (by omega) (by omega)]
    unfold lamFull
    beta_reduce
    rw [if_neg (show ¬ k = 0 by omega), if_neg (by omega), if_neg (show ¬(r.nsMinF = 0 ∧ k - r.nsMinH = 0) by omega),
      if_pos (show 1 ≤ k - r.nsMinH ∧ k - r.nsMinH < r.nsMaxH + 1 - r.nsMinH by omega),
      show k - r.nsMinH - 1 + r.nsMinH = k - 1 by omega]
    by_cases e : k < c.ns - 1
    · rw [if_pos (by omega), if_pos e, show k + 1 - r.nsMinH - 1 + r.nsMinH = k by omega]
    · rw [if_neg (by omega), if_neg e, show k + 1 - r.nsMinH = c.ns - r.nsMinH by omega, ha.2 (by omega)]
  unfold lambdaAverages
  rw [et]
  dsimp only [Outcome.bind_ok]
  rw [jm]
  obtain ⟨u, eu, hu⟩ := forRangeM_inv (lo := max 1 r.nsMinF) (hi := r.nsMaxFIncludingLcfs) (by omega)
    (fun jF (a : Vec Lam3) => do
      let o ← a.get (jF + 1 - r.nsMinH)
      let i ← a.get (jF - r.nsMinH)
      a.set (jF - r.nsMinF) (⟨0.5 * (o.b + i.b), 0.5 * (o.d + i.d), 0.5 * (o.c + i.c)⟩ : Lam3)) t
    (fun (k : Int) (a : Vec Lam3) => Full a (r.nsMaxF1 - r.nsMinF1 + 1)
      (fun i => if max 1 r.nsMinF - r.nsMinF ≤ i ∧ i < k - r.nsMinF then lamFull c H (i + r.nsMinF) else t.val i))
    ⟨ht.1, fun i _ _ => by beta_reduce; rw [if_neg (by omega)]⟩
    (by
      intro k a k1 k2 ha
      beta_reduce
      rw [ha.get (by omega) (by omega), ha.get (by omega) (by omega), if_neg (by omega), if_neg (by omega)]
      dsimp only [Outcome.bind_ok]
      obtain ⟨u, e, hu⟩ := ha.set (kl := k - r.nsMinF) (by omega) (by omega) (lamFull c H k)
      refine ⟨u, ?_, hu.congr fun i _ _ => ?_⟩
      · rw [← e, ← value k k1 k2]; rfl
      · by_cases e : i = k - r.nsMinF
        · rw [if_pos e, if_pos (by omega), show i + r.nsMinF = k by omega]
        · rw [if_neg e]
          by_cases e2 : max 1 r.nsMinF - r.nsMinF ≤ i ∧ i < k - r.nsMinF
          · rw [if_pos e2, if_pos (by omega)]
          · rw [if_neg e2, if_neg (by omega)])
  refine ⟨u, es, eu, ⟨hu.1, fun e => ?_⟩, fun j j1 j2 => ?_⟩
  · rw [hu.2 _ (by omega) (by omega)]
    beta_reduce
    rw [if_neg (by omega), ht.2 _ (by omega) (by omega)]
    beta_reduce
    rw [if_neg (by omega), if_neg (by omega), ha.2 e]
  · rw [hu.get (by omega) (by omega)]
    by_cases e : 1 ≤ j
    · rw [if_pos (by omega), show j - r.nsMinF + r.nsMinF = j by omega]
    · rw [if_neg (by omega), ht.2 _ (by omega) (by omega)]
      beta_reduce
      rw [if_pos (by omega), show j = 0 by omega]
      rfl

/-- the preconditioner entry of a mode on a surface -/
noncomputable def lamEntryAt (c : Ctx) (H : Int → Int → Half) (qF : Int → ℝ) (j m n : Int) : ℝ :=
  if j = 0 ∨ (m = 0 ∧ n = 0) then 0 else lambdaEntry c.lamscale c.nfp m n (lamFull c H j) (qF j)

/-- entries of a family over surfaces and modes -/
def Modes (v : Vec ℝ) (lo hi mpol n1 : Int) (E : Int → Int → Int → ℝ) : Prop :=
  v.size = (hi - lo) * mpol * n1 ∧ ∀ j m n, lo ≤ j → j < hi → 0 ≤ m → m < mpol → 0 ≤ n → n < n1 →
    v.val (((j - lo) * mpol + m) * n1 + n) = E j m n

theorem modes_bound {lo hi mpol n1 j m n : Int} (h1 : lo ≤ j) (h2 : j < hi) (h3 : 0 ≤ m) (h4 : m < mpol) (h5 : 0 ≤ n)
    (h6 : n < n1) : 0 ≤ ((j - lo) * mpol + m) * n1 + n ∧ ((j - lo) * mpol + m) * n1 + n < (hi - lo) * mpol * n1 := by
  obtain ⟨b1, b2⟩ := idx_bound (n := mpol) h1 h2 h3 h4
  have := idx_bound (lo := 0) (hi := (hi - lo) * mpol) (n := n1) (j := (j - lo) * mpol + m) b1 b2 h5 h6
  simpa using this

theorem Modes.set {v : Vec ℝ} {lo hi mpol n1 : Int} {E : Int → Int → Int → ℝ} (hv : Modes v lo hi mpol n1 E) {j m n : Int}
    (h1 : lo ≤ j) (h2 : j < hi) (h3 : 0 ≤ m) (h4 : m < mpol) (h5 : 0 ≤ n) (h6 : n < n1) (x : ℝ) :
    ∃ w, v.set (((j - lo) * mpol + m) * n1 + n) x = .ok w ∧
      Modes w lo hi mpol n1 (fun j' m' n' => if j' = j ∧ m' = m ∧ n' = n then x else E j' m' n') := by
  have hb := modes_bound h1 h2 h3 h4 h5 h6
  refine ⟨_, Vec.set_ok _ _ _ hb.1 (by rw [hv.1]; exact hb.2), hv.1, fun j' m' n' a1 a2 a3 a4 a5 a6 => ?_⟩
  by_cases e : j' = j ∧ m' = m ∧ n' = n
  · obtain ⟨rfl, rfl, rfl⟩ := e; simp
  · beta_reduce
    rw [if_neg e]
    refine (upd_ne _ _ ?_).trans (hv.2 j' m' n' a1 a2 a3 a4 a5 a6)
    intro e'
    obtain ⟨k1, k2⟩ := flat_inj a5 a6 h5 h6 e'
    obtain ⟨k3, k4⟩ := flat_inj a3 a4 h3 h4 k1
    exact e ⟨by omega, k4, k2⟩

theorem Modes.congr {v : Vec ℝ} {lo hi mpol n1 : Int} {E E' : Int → Int → Int → ℝ} (hv : Modes v lo hi mpol n1 E)
    (h : ∀ j m n, lo ≤ j → j < hi → 0 ≤ m → m < mpol → 0 ≤ n → n < n1 → E j m n = E' j m n) : Modes v lo hi mpol n1 E' :=
  ⟨hv.1, fun j m n a b d e f g => (hv.2 j m n a b d e f g).trans (h j m n a b d e f g)⟩

theorem lambdaPrecond_ok (hc : GoodCtx c) (hr : Good c.ns lfreeb r) (hh : Holds half r.nsMinH r.nsMaxH c.nZnT H)
    (hq' : Holds1 sqrtSF r.nsMinF1 r.nsMaxF1 qF) (hm : 0 ≤ c.mpol) (hn : 0 ≤ c.ntor) {a : Vec Lam3} (ha : SlotZero c r a)
    {pre : Vec ℝ} (hp : pre.size = (r.nsMaxFIncludingLcfs - r.nsMinF) * c.mpol * (c.ntor + 1)) :
    ∃ a' pre', updateLambdaPreconditioner c r half sqrtSF a pre = .ok (a', pre') ∧ SlotZero c r a' ∧
      Modes pre' r.nsMinF r.nsMaxFIncludingLcfs c.mpol (c.ntor + 1) (lamEntryAt c H qF) := by
  obtain ⟨s, t, e1, e2, ht, hget⟩ := averages_ok hc hr hh ha
  have h := hr
  obtain ⟨a1, a2, a3, a4, a5, a6, a7, a8, a9, a10, a11, a12⟩ := h
  have hd := hr.dist
  have hl : r.nsMaxFIncludingLcfs ≤ r.nsMaxF1 ∧ r.nsMinF + 2 ≤ r.nsMaxFIncludingLcfs := by
    rw [a11]; split <;> omega
  obtain ⟨l1, l2⟩ := hl
  have jm : max (if r.nsMinF = 0 then (1 : Int) else 0) r.nsMinF = max 1 r.nsMinF := by
    split <;> omega
  unfold updateLambdaPreconditioner
  rw [e1, Outcome.bind_ok, e2, Outcome.bind_ok, jm]
  have hN : 0 ≤ (r.nsMaxFIncludingLcfs - r.nsMinF) * (c.ntor + 1) * c.mpol :=
    mul_nonneg (mul_nonneg (by omega) (by omega)) hm
  obtain ⟨p0, ep, hp0⟩ := full_fill (v := pre) (fun i (p : Vec ℝ) => p.set i 0) (fun _ => (0 : ℝ)) hN
    (by rw [hp]; ring) (fun _ _ _ _ _ _ _ => rfl)
  rw [ep, Outcome.bind_ok]
  have start : Modes p0 r.nsMinF r.nsMaxFIncludingLcfs c.mpol (c.ntor + 1)
      (fun j m n => if j < max 1 r.nsMinF then lamEntryAt c H qF j m n else 0) := by
    refine ⟨by rw [hp0.1]; ring, fun j m n h1 h2 h3 h4 h5 h6 => ?_⟩
    obtain ⟨b1, b2⟩ := modes_bound h1 h2 h3 h4 h5 h6
    rw [hp0.2 _ b1 (by rw [mul_right_comm]; exact b2)]
    beta_reduce
    by_cases e : j < max 1 r.nsMinF
    · rw [if_pos e]; unfold lamEntryAt; rw [if_pos (Or.inl (by omega))]
    · rw [if_neg e]
  obtain ⟨q, eq, hq⟩ := forRangeM_inv (lo := max 1 r.nsMinF) (hi := r.nsMaxFIncludingLcfs) (by omega) (fun jF pre =>
      forRangeM 0 (c.ntor + 1) (fun n pre =>
        forRangeM 0 c.mpol (fun m pre =>
          if m = 0 ∧ n = 0 then .ok pre
          else do
            let x ← t.get (jF - r.nsMinF)
            let s ← sqrtSF.get (jF - r.nsMinF1)
            pre.set (((jF - r.nsMinF) * c.mpol + m) * (c.ntor + 1) + n) (lambdaEntry c.lamscale c.nfp m n x s)) pre) pre)
    p0 (fun (k : Int) (p : Vec ℝ) => Modes p r.nsMinF r.nsMaxFIncludingLcfs c.mpol (c.ntor + 1)
      (fun j m n => if j < k then lamEntryAt c H qF j m n else 0)) start
    (by
      intro k p k1 k2 hp
      obtain ⟨q, eq, hq⟩ := forRangeM_inv (lo := 0) (hi := c.ntor + 1) (by omega) (fun n pre =>
        forRangeM 0 c.mpol (fun m pre =>
          if m = 0 ∧ n = 0 then .ok pre
          else do
            let x ← t.get (k - r.nsMinF)
            let s ← sqrtSF.get (k - r.nsMinF1)
            pre.set (((k - r.nsMinF) * c.mpol + m) * (c.ntor + 1) + n) (lambdaEntry c.lamscale c.nfp m n x s)) pre) p
        (fun (b : Int) (p : Vec ℝ) => Modes p r.nsMinF r.nsMaxFIncludingLcfs c.mpol (c.ntor + 1)
          (fun j m n => if j < k ∨ (j = k ∧ n < b) then lamEntryAt c H qF j m n else 0))
        (hp.congr fun j m n _ _ _ _ _ _ => by
          by_cases e : j < k
          · rw [if_pos e, if_pos (Or.inl e)]
          · rw [if_neg e, if_neg (by omega)])
        (by
          intro b p b1 b2 hp
          obtain ⟨q, eq, hq⟩ := forRangeM_inv (lo := 0) (hi := c.mpol) hm (fun m pre =>
            if m = 0 ∧ b = 0 then .ok pre
            else do
              let x ← t.get (k - r.nsMinF)
              let s ← sqrtSF.get (k - r.nsMinF1)
              pre.set (((k - r.nsMinF) * c.mpol + m) * (c.ntor + 1) + b) (lambdaEntry c.lamscale c.nfp m b x s)) p
            (fun (d : Int) (p : Vec ℝ) => Modes p r.nsMinF r.nsMaxFIncludingLcfs c.mpol (c.ntor + 1)
              (fun j m n => if j < k ∨ (j = k ∧ (n < b ∨ (n = b ∧ m < d))) then lamEntryAt c H qF j m n else 0))
            (hp.congr fun j m n _ _ _ _ _ _ => by
              by_cases e : j < k ∨ (j = k ∧ n < b)
              · rw [if_pos e, if_pos (by omega)]
              · rw [if_neg e, if_neg (by omega)])
            (by
              intro d p d1 d2 hp
              beta_reduce
              by_cases e0 : d = 0 ∧ b = 0
              · rw [if_pos e0]
                refine ⟨p, rfl, hp.congr fun j m n _ _ _ _ _ _ => ?_⟩
                by_cases e : j < k ∨ (j = k ∧ (n < b ∨ (n = b ∧ m < d)))
                · rw [if_pos e, if_pos (by omega)]
                · rw [if_neg e]
                  by_cases e' : j < k ∨ (j = k ∧ (n < b ∨ (n = b ∧ m < d + 1)))
                  · rw [if_pos e']; unfold lamEntryAt; rw [if_pos (Or.inr (by omega))]
                  · rw [if_neg e']
              · rw [if_neg e0, hget k (by omega) k2, hq'.get (by omega) (by omega)]
                dsimp only [Outcome.bind_ok]
                obtain ⟨w, ew, hw⟩ := hp.set (j := k) (by omega) k2 d1 d2 b1 b2
                  (lambdaEntry c.lamscale c.nfp d b (lamFull c H k) (qF k))
                refine ⟨w, ew, hw.congr fun j m n _ _ _ _ _ _ => ?_⟩
                by_cases e : j = k ∧ m = d ∧ n = b
                · obtain ⟨rfl, rfl, rfl⟩ := e
                  rw [if_pos ⟨rfl, rfl, rfl⟩, if_pos (Or.inr ⟨rfl, Or.inr ⟨rfl, by omega⟩⟩)]
                  unfold lamEntryAt
                  rw [if_neg (by omega)]
                · rw [if_neg e]
                  by_cases e2 : j < k ∨ (j = k ∧ (n < b ∨ (n = b ∧ m < d)))
                  · rw [if_pos e2, if_pos (by omega)]
                  · rw [if_neg e2, if_neg (by omega)])
          refine ⟨q, eq, hq.congr fun j m n _ _ _ hm _ _ => ?_⟩
          by_cases e : j < k ∨ (j = k ∧ (n < b ∨ (n = b ∧ m < c.mpol)))
          · rw [if_pos e, if_pos (by omega)]
          · rw [if_neg e, if_neg (by omega)])
      refine ⟨q, eq, hq.congr fun j m n _ _ _ _ _ hn => ?_⟩
      by_cases e : j < k ∨ (j = k ∧ n < c.ntor + 1)
      · rw [if_pos e, if_pos (by omega)]
      · rw [if_neg e, if_neg (by omega)])
  rw [eq]
  exact ⟨t, q, rfl, ht, hq.congr fun j m n _ h _ _ _ _ => by rw [if_pos h]⟩

/-! ## radial preconditioner -/

/-- half-grid sums of a surface -/
noncomputable def preSum (c : Ctx) (x : Arrays) (H : Int → Int → Half) (X : Int → Int → Geo) (qH : Int → ℝ) (j : Int) :
    PreSums :=
  ∑ kl ∈ Ico 0 c.nZnT, precondPoint x c.deltaS (qH j) (wt c kl) (H j kl) (X j kl) (X (j + 1) kl)

theorem precondSums_ok (hc : GoodCtx c) (hr : Good c.ns lfreeb r) (x : Arrays)
    (hh : Holds half r.nsMinH r.nsMaxH c.nZnT H) (hg : Holds geo r.nsMinF1 r.nsMaxF1 c.nZnT X)
    (hq : Holds1 sqrtSH r.nsMinH r.nsMaxH qH) {sums : Vec PreSums} (hs : sums.size = r.nsMaxH - r.nsMinH) :
    ∃ s, precondSums c r x half geo sqrtSH sums = .ok s ∧ Holds1 s r.nsMinH r.nsMaxH (preSum c x H X qH) := by
  obtain ⟨w1, w2, w3⟩ := hr.window
  unfold precondSums
  obtain ⟨z, ez, hz⟩ := full_fill (v := sums) (fun i (p : Vec PreSums) => p.set i 0) (fun _ => (0 : PreSums)) (by omega)
    hs (fun _ _ _ _ _ _ _ => rfl)
  rw [ez, Outcome.bind_ok]
  have hz1 : Holds1 z r.nsMinH r.nsMaxH (fun _ => 0) := ⟨hz.1, fun j a b => hz.2 _ (by omega) (by omega)⟩
  obtain ⟨s, es, h⟩ := fill1 (fun jH (sums : Vec PreSums) =>
    forRangeM 0 c.nZnT (fun kl sums => do
      let h ← half.get ((jH - r.nsMinH) * c.nZnT + kl)
      let g0 ← geo.get ((jH - r.nsMinF1) * c.nZnT + kl)
      let g1 ← geo.get ((jH + 1 - r.nsMinF1) * c.nZnT + kl)
      let w ← weight c kl
      let q ← sqrtSH.get (jH - r.nsMinH)
      let s ← sums.get (jH - r.nsMinH)
      sums.set (jH - r.nsMinH) (s + precondPoint x c.deltaS q w h g0 g1)) sums) (preSum c x H X qH) hz1 (le_refl _)
    (le_refl _) (by
      intro j w K h1 h2 hw hK
      obtain ⟨u, eu, hu⟩ := accumulate hw h1 h2 hc.points (fun kl sums => do
          let h ← half.get ((j - r.nsMinH) * c.nZnT + kl)
          let g0 ← geo.get ((j - r.nsMinF1) * c.nZnT + kl)
          let g1 ← geo.get ((j + 1 - r.nsMinF1) * c.nZnT + kl)
          let w ← weight c kl
          let q ← sqrtSH.get (j - r.nsMinH)
          let s ← sums.get (j - r.nsMinH)
          sums.set (j - r.nsMinH) (s + precondPoint x c.deltaS q w h g0 g1))
        (fun kl => precondPoint x c.deltaS (qH j) (wt c kl) (H j kl) (X j kl) (X (j + 1) kl)) (by
          intro kl v K' k1 k2 hv
          rw [hh.get h1 h2 k1 k2, hg.get (by omega) (by omega) k1 k2, hg.get (by omega) (by omega) k1 k2,
            weight_ok hc k1, hq.get h1 h2, hv.get h1 h2]
          rfl)
      refine ⟨u, eu, hu.congr fun j' _ _ => ?_⟩
      by_cases e : j' = j
      · subst e; rw [if_pos rfl, if_pos rfl, hK, zero_add]; rfl
      · rw [if_neg e, if_neg e])
  exact ⟨s, es, h.congr fun j a b => if_pos ⟨a, b⟩⟩

/-- off-diagonal elements of a half-grid surface -/
noncomputable def offAt (S : Int → PreSums) (sm sp : Int → ℝ) (j : Int) : OffDiag :=
  ⟨-(S j).1 0, (S j).1 1 * sm j * sp j, (S j).2.1 0, (S j).2.1 0 * sm j * sp j⟩

/-- diagonal elements of a full-grid surface -/
noncomputable def diagAt (ns : Int) (S : Int → PreSums) (sm sp : Int → ℝ) (j : Int) : Diag :=
  ⟨(if 0 < j then (S (j - 1)).1 0 else 0) + (if j < ns - 1 then (S j).1 0 else 0),
    (if 0 < j then (S (j - 1)).1 2 * sm (j - 1) * sm (j - 1) else 0) + (if j < ns - 1 then (S j).1 3 * sp j * sp j else 0),
    (if 0 < j then (S (j - 1)).2.1 1 else 0) + (if j < ns - 1 then (S j).2.1 2 else 0),
    (if 0 < j then (S (j - 1)).2.1 1 * sm (j - 1) * sm (j - 1) else 0) +
      (if j < ns - 1 then (S j).2.1 2 * sp j * sp j else 0),
    (if 0 < j then (S (j - 1)).2.2 else 0) + (if j < ns - 1 then (S j).2.2 else 0)⟩

theorem precond_ok (hc : GoodCtx c) (hr : Good c.ns lfreeb r) (x : Arrays)
    (hh : Holds half r.nsMinH r.nsMaxH c.nZnT H) (hg : Holds geo r.nsMinF1 r.nsMaxF1 c.nZnT X)
    (hq : Holds1 sqrtSH r.nsMinH r.nsMaxH qH) {smV spV : Vec ℝ} {sm sp : Int → ℝ} (hm : Holds1 smV r.nsMinH r.nsMaxH sm)
    (hp : Holds1 spV r.nsMinH r.nsMaxH sp) {sums : Vec PreSums} (hs : sums.size = r.nsMaxH - r.nsMinH)
    {m : Vec OffDiag} (hmm : m.size = r.nsMaxH - r.nsMinH) {d : Vec Diag} (hdd : d.size = r.nsMaxF - r.nsMinF) :
    ∃ s m' d', computePreconditioningMatrix c r x half geo sqrtSH smV spV sums m d = .ok (s, m', d') ∧
      s.size = r.nsMaxH - r.nsMinH ∧
      Holds1 m' r.nsMinH r.nsMaxH (offAt (preSum c x H X qH) sm sp) ∧
      Holds1 d' r.nsMinF r.nsMaxF (diagAt c.ns (preSum c x H X qH) sm sp) := by
  obtain ⟨s, es, h⟩ := precondSums_ok hc hr x hh hg hq hs
  have hr' := hr
  obtain ⟨a1, a2, a3, a4, a5, a6, a7, a8, a9, a10, a11, a12⟩ := hr'
  have hdist := hr.dist
  unfold computePreconditioningMatrix
  rw [es, Outcome.bind_ok]
  obtain ⟨m', em, hm'⟩ : ∃ m', precondHalf r s smV spV m = .ok m' ∧
      Holds1 m' r.nsMinH r.nsMaxH (offAt (preSum c x H X qH) sm sp) := by
    unfold precondHalf
    obtain ⟨m', em, hm'⟩ := fill1 (G := fun j => m.val (j - r.nsMinH)) (fun jH (out : Vec OffDiag) => do
      let s ← s.get (jH - r.nsMinH)
      let m ← smV.get (jH - r.nsMinH)
      let p ← spV.get (jH - r.nsMinH)
      out.set (jH - r.nsMinH) (⟨-s.1 0, s.1 1 * m * p, s.2.1 0, s.2.1 0 * m * p⟩ : OffDiag))
      (offAt (preSum c x H X qH) sm sp) ⟨hmm, fun _ _ _ => rfl⟩ (le_refl _) (le_refl _) (by
        intro j w K h1 h2 hw _
        rw [h.get h1 h2, hm.get h1 h2, hp.get h1 h2]
        exact hw.set h1 h2 _)
    exact ⟨m', em, hm'.congr fun j a b => if_pos ⟨a, b⟩⟩
  rw [em, Outcome.bind_ok]
  obtain ⟨d', ed, hd'⟩ : ∃ d', precondFull c r s smV spV d = .ok d' ∧
      Holds1 d' r.nsMinF r.nsMaxF (diagAt c.ns (preSum c x H X qH) sm sp) := by
    unfold precondFull
    obtain ⟨d', ed, hd'⟩ := fill1 (G := fun j => d.val (j - r.nsMinF)) (fun jF (out : Vec Diag) => do
      let i ← innerDiag r s smV jF
      let o ← outerDiag c r s spV jF
      out.set (jF - r.nsMinF) (⟨i.axd_e + o.axd_e, i.axd_o + o.axd_o, i.bxd_e + o.bxd_e, i.bxd_o + o.bxd_o,
        i.cxd + o.cxd⟩ : Diag))
      (diagAt c.ns (preSum c x H X qH) sm sp) ⟨hdd, fun _ _ _ => rfl⟩ (le_refl _) (le_refl _) (by
        intro j w K h1 h2 hw _
        have ei : innerDiag r s smV j = .ok (if 0 < j then ⟨(preSum c x H X qH (j - 1)).1 0,
            (preSum c x H X qH (j - 1)).1 2 * sm (j - 1) * sm (j - 1), (preSum c x H X qH (j - 1)).2.1 1,
            (preSum c x H X qH (j - 1)).2.1 1 * sm (j - 1) * sm (j - 1), (preSum c x H X qH (j - 1)).2.2⟩
            else ⟨0, 0, 0, 0, 0⟩) := by
          unfold innerDiag
          by_cases e : 0 < j
          · rw [if_pos e, if_pos e, h.get (by omega) (by omega), hm.get (by omega) (by omega)]; rfl
          · rw [if_neg e, if_neg e]
        have eo : outerDiag c r s spV j = .ok (if j < c.ns - 1 then ⟨(preSum c x H X qH j).1 0,
            (preSum c x H X qH j).1 3 * sp j * sp j, (preSum c x H X qH j).2.1 2,
            (preSum c x H X qH j).2.1 2 * sp j * sp j, (preSum c x H X qH j).2.2⟩ else ⟨0, 0, 0, 0, 0⟩) := by
          unfold outerDiag
          by_cases e : j < c.ns - 1
          · rw [if_pos e, if_pos e, h.get (by omega) (by omega), hp.get (by omega) (by omega)]; rfl
          · rw [if_neg e, if_neg e]
        rw [ei, eo]
        obtain ⟨w', ew, hw'⟩ := hw.set h1 h2 (diagAt c.ns (preSum c x H X qH) sm sp j)
        refine ⟨w', ?_, hw'⟩
        rw [← ew]
        dsimp only [Outcome.bind_ok]
        congr 1
        unfold diagAt
        by_cases e : 0 < j <;> by_cases e' : j < c.ns - 1 <;> simp only [e, e', if_true, if_false])
    exact ⟨d', ed, hd'.congr fun j a b => if_pos ⟨a, b⟩⟩
  rw [ed]
  exact ⟨s, m', d', rfl, h.1, hm', hd'⟩

/-! ## constraint multiplier and force balance -/

/-- poloidal derivatives of `R` and `Z` on a surface -/
noncomputable def fullAt (X : Int → Int → Geo) (qF : Int → ℝ) (j kl : Int) : ℝ × ℝ :=
  ((X j kl).ru_e + qF j * (X j kl).ru_o, (X j kl).zu_e + qF j * (X j kl).zu_o)

theorem fullDerivs_ok (hr : Good c.ns lfreeb r) (hg : Holds geo r.nsMinF1 r.nsMaxF1 c.nZnT X)
    (hq' : Holds1 sqrtSF r.nsMinF1 r.nsMaxF1 qF) {out : Vec (ℝ × ℝ)}
    {O : Int → Int → ℝ × ℝ} (ho : Holds out r.nsMinF r.nsMaxFIncludingLcfs c.nZnT O) :
    ∃ w, fullDerivs c r geo sqrtSF out = .ok w ∧ Holds w r.nsMinF r.nsMaxFIncludingLcfs c.nZnT (fullAt X qF) := by
  have hr' := hr
  obtain ⟨a1, a2, a3, a4, a5, a6, a7, a8, a9, a10, a11, a12⟩ := hr'
  have hdist := hr.dist
  have hl : r.nsMaxFIncludingLcfs ≤ r.nsMaxF1 := by rw [a11]; split <;> omega
  unfold fullDerivs
  obtain ⟨w, e, hw⟩ := rows_fill (fun jF (out : Vec (ℝ × ℝ)) =>
    forRangeM 0 c.nZnT (fun kl out => do
      let g ← geo.get ((jF - r.nsMinF1) * c.nZnT + kl)
      let q ← sqrtSF.get (jF - r.nsMinF1)
      out.set ((jF - r.nsMinF) * c.nZnT + kl) (g.ru_e + q * g.ru_o, g.zu_e + q * g.zu_o)) out) (fullAt X qF) ho (by
      intro j w K h1 h2 hw _
      refine row_fill (G := K) _ (fullAt X qF j) hw h1 h2 fun kl u K' k1 k2 hu _ => ?_
      rw [hg.get (by omega) (by omega) k1 k2, hq'.get (by omega) (by omega)]
      rfl)
  exact ⟨w, e, hw.congr fun j kl a b _ _ => by rw [if_pos ⟨a, b⟩]⟩

/-- norms of the poloidal derivatives on a surface -/
noncomputable def normAt (c : Ctx) (F : Int → Int → ℝ × ℝ) (j : Int) : ℝ × ℝ :=
  (∑ kl ∈ Ico 0 c.nZnT, (F j kl).1 * (F j kl).1 * wt c kl, ∑ kl ∈ Ico 0 c.nZnT, (F j kl).2 * (F j kl).2 * wt c kl)

theorem conNorms_ok (hc : GoodCtx c) {full : Vec (ℝ × ℝ)} {F : Int → Int → ℝ × ℝ} {hi : Int}
    (hf : Holds full r.nsMinF hi c.nZnT F) {j : Int} (h1 : r.nsMinF ≤ j) (h2 : j < hi) :
    conNorms c r full j = .ok (normAt c F j) := by
  unfold conNorms normAt
  rw [sumM (n := c.nZnT) _ (fun kl => ((F j kl).1 * (F j kl).1 * wt c kl, (F j kl).2 * (F j kl).2 * wt c kl)) hc.points]
  · rw [Prod.mk_zero_zero, zero_add]
    congr 1
    exact Prod.ext (Prod.fst_sum ..) (Prod.snd_sum ..)
  · intro kl s k1 k2
    rw [hf.get h1 h2 k1 k2, weight_ok hc k1]
    rfl

/-- the multiplier of an interior surface -/
noncomputable def tconIn (c : Ctx) (tcon0 : ℝ) (F : Int → Int → ℝ × ℝ) (A Z : Int → Diag) (j : Int) : ℝ :=
  tconValue c.ns tcon0 c.deltaS (A j).axd_e (Z j).axd_e (normAt c F j).1 (normAt c F j).2

theorem tcon_ok (hc : GoodCtx c) (hr : Good c.ns lfreeb r) (tcon0 : ℝ) {full : Vec (ℝ × ℝ)} {F : Int → Int → ℝ × ℝ}
    (hf : Holds full r.nsMinF r.nsMaxFIncludingLcfs c.nZnT F) {ar az : Vec Diag} {A Z : Int → Diag}
    (ha : Holds1 ar r.nsMinF r.nsMaxF A) (hz : Holds1 az r.nsMinF r.nsMaxF Z) {tcon : Vec ℝ} {T : Int → ℝ}
    (ht : Holds1 tcon r.nsMinF r.nsMaxFIncludingLcfs T)
    (hn : ∀ j, r.nsMinF ≤ j → j < r.nsMaxF → 0 < j → (normAt c F j).1 ≠ 0 ∧ (normAt c F j).2 ≠ 0) :
    ∃ w, constraintForceMultiplier c r tcon0 full ar az tcon = .ok w ∧ Holds1 w r.nsMinF r.nsMaxFIncludingLcfs
      (fun j => if j = 0 then T 0 else if j = c.ns - 1 then 0.5 * tconIn c tcon0 F A Z (c.ns - 2)
        else tconIn c tcon0 F A Z j) := by
  have hr' := hr
  obtain ⟨a1, a2, a3, a4, a5, a6, a7, a8, a9, a10, a11, a12⟩ := hr'
  have hdist := hr.dist
  have hl : r.nsMaxFIncludingLcfs ≤ r.nsMaxF1 ∧ r.nsMaxF ≤ r.nsMaxFIncludingLcfs ∧
      (r.nsMaxF1 < c.ns → r.nsMaxFIncludingLcfs = r.nsMaxF) ∧ (r.nsMaxF1 = c.ns → r.nsMaxFIncludingLcfs = c.ns) := by
    rw [a11]; split <;> omega
  obtain ⟨l1, l2, l3, l4⟩ := hl
  have jm : max (if r.nsMinF = 0 then (1 : Int) else 0) r.nsMinF = max 1 r.nsMinF := by
    split <;> omega
  unfold constraintForceMultiplier
  rw [jm]
  obtain ⟨w, ew, hw⟩ := fill1 (a := max 1 r.nsMinF) (b := r.nsMaxF) (tconSurface c r tcon0 full ar az)
    (tconIn c tcon0 F A Z) ht (by omega) (by omega) (by
      intro j w K h1 h2 hw _
      unfold tconSurface
      rw [conNorms_ok hc hf (by omega) (by omega), Outcome.bind_ok]
      obtain ⟨n1, n2⟩ := hn j (by omega) h2 (by omega)
      rw [if_neg n1, if_neg n2, ha.get (by omega) h2, hz.get (by omega) h2]
      exact hw.set (by omega) (by omega) _)
  rw [ew, Outcome.bind_ok]
  by_cases h : r.nsMaxF1 = c.ns
  · rw [if_pos h, show r.nsMaxF1 - 2 - r.nsMinF = (c.ns - 2) - r.nsMinF by omega, hw.get (by omega) (by omega),
      if_pos (by omega), Outcome.bind_ok, show r.nsMaxF1 - 1 - r.nsMinF = (c.ns - 1) - r.nsMinF by omega]
    obtain ⟨u, eu, hu⟩ := hw.set (j := c.ns - 1) (by omega) (by omega) (0.5 * tconIn c tcon0 F A Z (c.ns - 2))
    refine ⟨u, eu, hu.congr fun j _ _ => ?_⟩
    by_cases e : j = c.ns - 1
    · rw [if_pos e, if_neg (by omega), if_pos e]
    · rw [if_neg e]
      by_cases e0 : j = 0
      · rw [if_neg (by omega), if_pos e0, e0]
      · rw [if_pos (by omega), if_neg e0, if_neg e]
  · rw [if_neg h]
    refine ⟨w, rfl, hw.congr fun j _ _ => ?_⟩
    by_cases e0 : j = 0
    · rw [if_neg (by omega), if_pos e0, e0]
    · rw [if_pos (by omega), if_neg e0, if_neg (by omega)]

/-- averages of the covariant components on a half-grid surface -/
noncomputable def coAt (c : Ctx) (H : Int → Int → Half) (j : Int) : ℝ × ℝ :=
  (∑ kl ∈ Ico 0 c.nZnT, (H j kl).bsubu * wt c kl, ∑ kl ∈ Ico 0 c.nZnT, (H j kl).bsubv * wt c kl)

theorem covariant_ok (hc : GoodCtx c) (hh : Holds half r.nsMinH r.nsMaxH c.nZnT H) {b : Vec (ℝ × ℝ)}
    (hb : b.size = r.nsMaxH - r.nsMinH) :
    ∃ b', covariantAverages c r half b = .ok b' ∧ Holds1 b' r.nsMinH r.nsMaxH (coAt c H) := by
  unfold covariantAverages
  obtain ⟨s, es, h⟩ := fill1 (G := fun j => b.val (j - r.nsMinH)) (fun jH (b : Vec (ℝ × ℝ)) => do
    let b ← b.set (jH - r.nsMinH) (0, 0)
    forRangeM 0 c.nZnT (fun kl b => do
      let h ← half.get ((jH - r.nsMinH) * c.nZnT + kl)
      let w ← weight c kl
      let s ← b.get (jH - r.nsMinH)
      b.set (jH - r.nsMinH) (s.1 + h.bsubu * w, s.2 + h.bsubv * w)) b) (coAt c H) ⟨hb, fun _ _ _ => rfl⟩ (le_refl _)
    (le_refl _) (by
      intro j w K h1 h2 hw _
      obtain ⟨u0, e0, k0⟩ := hw.set h1 h2 ((0, 0) : ℝ × ℝ)
      rw [e0, Outcome.bind_ok]
      obtain ⟨u, eu, hu⟩ := accumulate k0 h1 h2 hc.points (fun kl b => do
          let h ← half.get ((j - r.nsMinH) * c.nZnT + kl)
          let w ← weight c kl
          let s ← b.get (j - r.nsMinH)
          b.set (j - r.nsMinH) (s.1 + h.bsubu * w, s.2 + h.bsubv * w))
        (fun kl => ((H j kl).bsubu * wt c kl, (H j kl).bsubv * wt c kl)) (by
          intro kl v K' k1 k2 hv
          rw [hh.get h1 h2 k1 k2, weight_ok hc k1, hv.get h1 h2]
          rfl)
      refine ⟨u, eu, hu.congr fun j' _ _ => ?_⟩
      by_cases e : j' = j
      · subst e
        rw [if_pos rfl, if_pos rfl, if_pos rfl, Prod.mk_zero_zero, zero_add]
        exact Prod.ext (Prod.fst_sum ..) (Prod.snd_sum ..)
      · rw [if_neg e, if_neg e, if_neg e])
  exact ⟨s, es, h.congr fun j a b => if_pos ⟨a, b⟩⟩

/-- the force balance of an interior surface -/
noncomputable def balanceAt (c : Ctx) (H : Int → Int → Half) (p V chip phip : Int → ℝ) (j : Int) : Balance :=
  balancePoint c.signOfJacobian c.deltaS (coAt c H j) (coAt c H (j - 1)) (p j) (p (j - 1)) (V j) (V (j - 1)) (chip j) (phip j)

theorem balance_ok (hc : GoodCtx c) (hr : Good c.ns lfreeb r) (hh : Holds half r.nsMinH r.nsMaxH c.nZnT H)
    {presH dVdsH chipF phipF : Vec ℝ} {p V chip phip : Int → ℝ} (hp : Holds1 presH r.nsMinH r.nsMaxH p)
    (hv : Holds1 dVdsH r.nsMinH r.nsMaxH V) (hx : Holds1 chipF r.nsMinF1 r.nsMaxF1 chip)
    (hy : Holds1 phipF r.nsMinF1 r.nsMaxF1 phip) {b : Vec (ℝ × ℝ)} (hb : b.size = r.nsMaxH - r.nsMinH)
    {out : Vec Balance} (ho : out.size = r.nsMaxFi - r.nsMinFi) :
    ∃ b' out', radialForceBalance c r half presH dVdsH chipF phipF b out = .ok (b', out') ∧
      Holds1 b' r.nsMinH r.nsMaxH (coAt c H) ∧ Holds1 out' r.nsMinFi r.nsMaxFi (balanceAt c H p V chip phip) := by
  have hr' := hr
  obtain ⟨a1, a2, a3, a4, a5, a6, a7, a8, a9, a10, a11, a12⟩ := hr'
  have hdist := hr.dist
  unfold radialForceBalance
  obtain ⟨b', e, h⟩ := covariant_ok hc hh hb
  rw [e, Outcome.bind_ok]
  obtain ⟨w, ew, hw⟩ := fill1 (G := fun j => out.val (j - r.nsMinFi)) (fun jFi (out : Vec Balance) => do
    let bo ← b'.get (jFi - r.nsMinH)
    let bi ← b'.get (jFi - 1 - r.nsMinH)
    let po ← presH.get (jFi - r.nsMinH)
    let pi ← presH.get (jFi - 1 - r.nsMinH)
    let vo ← dVdsH.get (jFi - r.nsMinH)
    let vi ← dVdsH.get (jFi - 1 - r.nsMinH)
    let chip ← chipF.get (jFi - r.nsMinF1)
    let phip ← phipF.get (jFi - r.nsMinF1)
    out.set (jFi - r.nsMinFi) (balancePoint c.signOfJacobian c.deltaS bo bi po pi vo vi chip phip))
    (balanceAt c H p V chip phip) ⟨ho, fun _ _ _ => rfl⟩ (le_refl _) (le_refl _) (by
      intro j w K h1 h2 hw _
      rw [h.get (by omega) (by omega), h.get (by omega) (by omega), hp.get (by omega) (by omega),
        hp.get (by omega) (by omega), hv.get (by omega) (by omega), hv.get (by omega) (by omega),
        hx.get (by omega) (by omega), hy.get (by omega) (by omega)]
      exact hw.set h1 h2 _)
  rw [ew]
  exact ⟨b', w, rfl, h, hw.congr fun j a b => if_pos ⟨a, b⟩⟩

/-- contribution of a half-grid surface to the norms -/
noncomputable def normTerms (c : Ctx) (H : Int → Int → Half) (j : Int) : ℝ × ℝ :=
  (∑ kl ∈ Ico 0 c.nZnT, (H j kl).guu * (H j kl).r12 * (H j kl).r12 * wt c kl,
    ∑ kl ∈ Ico 0 c.nZnT, ((H j kl).bsubu * (H j kl).bsubu + (H j kl).bsubv * (H j kl).bsubv) * wt c kl)

theorem forceNormSums_ok (hc : GoodCtx c) (hr : Good c.ns lfreeb r) (hh : Holds half r.nsMinH r.nsMaxH c.nZnT H) :
    forceNormSums c r half = .ok (∑ j ∈ Ico r.nsMinH r.nsMaxH,
      if j < r.nsMaxH - 1 ∨ j = c.ns - 2 then normTerms c H j else 0) := by
  obtain ⟨w1, w2, w3⟩ := hr.window
  unfold forceNormSums
  obtain ⟨s, e, hs⟩ := forRangeM_inv (lo := r.nsMinH) (hi := r.nsMaxH) w3 (fun jH (s : ℝ × ℝ) =>
    forRangeM 0 c.nZnT (fun kl (s : ℝ × ℝ) =>
      if jH < r.nsMaxH - 1 ∨ jH = c.ns - 2 then do
        let h ← half.get ((jH - r.nsMinH) * c.nZnT + kl)
        let w ← weight c kl
        .ok (s.1 + h.guu * h.r12 * h.r12 * w, s.2 + (h.bsubu * h.bsubu + h.bsubv * h.bsubv) * w)
      else .ok s) s) ((0, 0) : ℝ × ℝ)
    (fun (k : Int) (s : ℝ × ℝ) => s = ∑ j ∈ Ico r.nsMinH k, if j < r.nsMaxH - 1 ∨ j = c.ns - 2 then normTerms c H j else 0)
    (by simp)
    (by
      intro k s a b hs
      refine ⟨_, sumM (n := c.nZnT) _ (fun kl => if k < r.nsMaxH - 1 ∨ k = c.ns - 2 then
          ((H k kl).guu * (H k kl).r12 * (H k kl).r12 * wt c kl,
            ((H k kl).bsubu * (H k kl).bsubu + (H k kl).bsubv * (H k kl).bsubv) * wt c kl) else 0) hc.points ?_ s, ?_⟩
      · intro kl s k1 k2
        by_cases e : k < r.nsMaxH - 1 ∨ k = c.ns - 2
        · rw [if_pos e, if_pos e, hh.get a b k1 k2, weight_ok hc k1]; rfl
        · rw [if_neg e, if_neg e, add_zero]
      · rw [sum_Ico_int_succ a, ← hs]
        congr 1
        by_cases e : k < r.nsMaxH - 1 ∨ k = c.ns - 2
        · simp only [if_pos e]
          exact Prod.ext (Prod.fst_sum ..) (Prod.snd_sum ..)
        · simp only [if_neg e, Finset.sum_const_zero])
  rw [e, hs]

end Verif.Kernels
