import Verif.Kernels.Field

/-!
# MHD force density and lambda force on the window of a thread
-/
namespace Verif.Kernels
open Verif Verif.Partition Finset

/-- scratch with one entry per point -/
def Full {α : Type} (v : Vec α) (n : Int) (G : Int → α) : Prop :=
  v.size = n ∧ ∀ kl, 0 ≤ kl → kl < n → v.val kl = G kl

section
variable {α : Type} {v : Vec α} {n : Int} {G : Int → α}

theorem Full.get (h : Full v n G) {kl : Int} (h0 : 0 ≤ kl) (h1 : kl < n) : v.get kl = .ok (G kl) := by
  rw [Vec.get_ok _ _ h0 (by rw [h.1]; exact h1), h.2 kl h0 h1]

theorem Full.set (h : Full v n G) {kl : Int} (h0 : 0 ≤ kl) (h1 : kl < n) (a : α) :
    ∃ w, v.set kl a = .ok w ∧ Full w n (fun k => if k = kl then a else G k) := by
  refine ⟨_, Vec.set_ok _ _ _ h0 (by rw [h.1]; exact h1), h.1, fun k a0 a1 => ?_⟩
  by_cases e : k = kl
  · subst e; simp
  · beta_reduce
    rw [if_neg e]
    exact (upd_ne _ _ e).trans (h.2 k a0 a1)

theorem Full.congr {G' : Int → α} (h : Full v n G) (e : ∀ k, 0 ≤ k → k < n → G k = G' k) : Full v n G' :=
  ⟨h.1, fun k a b => (h.2 k a b).trans (e k a b)⟩

theorem full_fill (f : Int → Vec α → Outcome (Vec α)) (g : Int → α) (hn : 0 ≤ n) (hv : v.size = n)
    (hf : ∀ kl w K, 0 ≤ kl → kl < n → Full w n K → K kl = v.val kl → f kl w = w.set kl (g kl)) :
    ∃ w, forRangeM 0 n f v = .ok w ∧ Full w n g := by
  obtain ⟨w, e, hw⟩ := forRangeM_inv (lo := 0) (hi := n) hn f v
    (fun (k : Int) (w : Vec α) => Full w n (fun i => if i < k then g i else v.val i))
    ⟨hv, fun i a _ => by beta_reduce; rw [if_neg (by omega)]⟩
    (by
      intro k w a b hw
      obtain ⟨w', e', hw'⟩ := hw.set a b (g k)
      refine ⟨w', (hf k w _ a b hw (by simp)).trans e', hw'.congr fun i _ _ => ?_⟩
      by_cases e : i = k
      · subst e; rw [if_pos rfl, if_pos (by omega)]
      · rw [if_neg e]
        by_cases e2 : i < k
        · rw [if_pos e2, if_pos (by omega)]
        · rw [if_neg e2, if_neg (by omega)])
  exact ⟨w, e, hw.congr fun i _ b => if_pos b⟩

end

variable {c : Ctx} {r : Ranges} {lfreeb : Bool} {H : Int → Int → Half} {half : Vec Half}
  {X : Int → Int → Geo} {geo : Vec Geo} {sqrtSH sqrtSF : Vec ℝ} {qH qF : Int → ℝ}

theorem outerRoot_ok (hr : Good c.ns lfreeb r) (hq : Holds1 sqrtSH r.nsMinH r.nsMaxH qH) (d : ℝ) {j : Int}
    (h1 : r.nsMinF ≤ j) (h2 : j < r.nsMaxF ∨ j < r.nsMaxFIncludingLcfs) :
    outerRoot r d sqrtSH j = .ok (if j < c.ns - 1 then qH j else d) := by
  have h := hr
  obtain ⟨a1, a2, a3, a4, a5, a6, a7, a8, a9, a10, a11, a12⟩ := h
  have hd := hr.dist
  have e : j < r.nsMaxH ↔ j < c.ns - 1 := by
    rcases h2 with h2 | h2
    · omega
    · rw [a11] at h2; split at h2 <;> omega
  unfold outerRoot
  by_cases h : j < r.nsMaxH
  · rw [if_pos h, if_pos (e.1 h), hq.get (by omega) h]
  · rw [if_neg h, if_neg (fun x => h (e.2 x))]

/-- the inner half-grid point of a full-grid surface -/
noncomputable def inSide (H : Int → Int → Half) (j kl : Int) : Side := if 0 < j then Side.of (H (j - 1) kl) else Side.zero
noncomputable def outSide (ns : Int) (H : Int → Int → Half) (j kl : Int) : Side :=
  if j < ns - 1 then Side.of (H j kl) else Side.zero
/-- the force density of a point -/
noncomputable def forceAt (c : Ctx) (H : Int → Int → Half) (X : Int → Int → Geo) (qH qF : Int → ℝ) (j kl : Int)
    (old : Force) : Force :=
  densityPoint c.lthreed c.deltaS (qF j * qF j) (if 0 < j then qH (j - 1) else 1) (if j < c.ns - 1 then qH j else 1)
    (inSide H j kl) (outSide c.ns H j kl) (X j kl) old

theorem fillSide_ok (hc : GoodCtx c) (hh : Holds half r.nsMinH r.nsMaxH c.nZnT H) {j : Int} (h1 : r.nsMinH ≤ j)
    (h2 : j < r.nsMaxH) {s : Vec Side} (hs : s.size = c.nZnT) :
    ∃ w, fillSide c r half j s = .ok w ∧ Full w c.nZnT (fun kl => Side.of (H j kl)) := by
  unfold fillSide
  refine full_fill _ _ hc.points hs fun kl w K k1 k2 _ _ => ?_
  rw [hh.get h1 h2 k1 k2]
  rfl

theorem zeroSide_ok (hc : GoodCtx c) {s : Vec Side} (hs : s.size = c.nZnT) :
    ∃ w, zeroSide c s = .ok w ∧ Full w c.nZnT (fun _ => Side.zero) :=
  full_fill _ _ hc.points hs fun _ _ _ _ _ _ _ => rfl

theorem density_ok (hc : GoodCtx c) (hf : c.lfreeb = lfreeb) (hr : Good c.ns lfreeb r)
    (hh : Holds half r.nsMinH r.nsMaxH c.nZnT H) (hg : Holds geo r.nsMinF1 r.nsMaxF1 c.nZnT X)
    (hq : Holds1 sqrtSH r.nsMinH r.nsMaxH qH) (hq' : Holds1 sqrtSF r.nsMinF1 r.nsMaxF1 qF)
    {inside outside : Vec Side} (hi : inside.size = c.nZnT) (ho : outside.size = c.nZnT) {out : Vec Force} {hiF : Int}
    (hhi : r.nsMaxF ≤ hiF)
    {F0 : Int → Int → Force} (hF : Holds out r.nsMinF hiF c.nZnT F0) :
    ∃ out', computeMHDForces c r half geo sqrtSH sqrtSF inside outside out = .ok out' ∧
      Holds out' r.nsMinF hiF c.nZnT
        (fun j kl => if j < r.nsMaxF then forceAt c H X qH qF j kl (F0 j kl) else F0 j kl) := by
  have h := hr
  obtain ⟨a1, a2, a3, a4, a5, a6, a7, a8, a9, a10, a11, a12⟩ := h
  have hd := hr.dist
  have hmax : (if c.lfreeb then min r.nsMaxF c.ns else min r.nsMaxF (c.ns - 1)) = r.nsMaxF := by
    rw [hf]; unfold numSurfacesToDistribute at a4
    cases lfreeb <;> simp at a4 ⊢ <;> omega
  unfold computeMHDForces
  dsimp only
  rw [hmax]
  have e1 : firstRoot r sqrtSH = .ok (if 0 < r.nsMinF then qH (r.nsMinF - 1) else 1) := by
    unfold firstRoot
    by_cases h : 0 < r.nsMinF
    · rw [if_pos h, if_pos h, hq.get (by omega) (by omega), show r.nsMinH = r.nsMinF - 1 by omega]
    · rw [if_neg h, if_neg h]
  rw [e1]
  dsimp only [Outcome.bind_ok]
  obtain ⟨i0, e2, hi0⟩ : ∃ w, firstSide c r half inside = .ok w ∧ Full w c.nZnT (inSide H r.nsMinF) := by
    unfold firstSide
    by_cases h : 0 < r.nsMinF
    · rw [if_pos h]
      obtain ⟨w, e, hw⟩ := fillSide_ok hc hh (j := r.nsMinH) (by omega) (by omega) hi
      refine ⟨w, e, hw.congr fun k _ _ => ?_⟩
      unfold inSide
      rw [if_pos h, show r.nsMinH = r.nsMinF - 1 by omega]
    · rw [if_neg h]
      obtain ⟨w, e, hw⟩ := zeroSide_ok hc hi
      refine ⟨w, e, hw.congr fun k _ _ => ?_⟩
      unfold inSide
      rw [if_neg h]
  rw [e2]
  dsimp only [Outcome.bind_ok]
  obtain ⟨o0, e3, ho0⟩ := zeroSide_ok hc ho
  rw [e3]
  dsimp only [Outcome.bind_ok]
  obtain ⟨s, e, -, -, -, hs4⟩ := forRangeM_inv (lo := r.nsMinF) (hi := r.nsMaxF) (by omega)
    (densitySurface c r half geo sqrtSH sqrtSF) (i0, (if 0 < r.nsMinF then qH (r.nsMinF - 1) else 1), o0, out)
    (fun (k : Int) (s : Vec Side × ℝ × Vec Side × Vec Force) => s.1.size = c.nZnT ∧
      (k < c.ns → Full s.1 c.nZnT (inSide H k) ∧ s.2.1 = (if 0 < k then qH (k - 1) else 1)) ∧ s.2.2.1.size = c.nZnT ∧
      Holds s.2.2.2 r.nsMinF hiF c.nZnT
        (fun j kl => if j < k then forceAt c H X qH qF j kl (F0 j kl) else F0 j kl))
    ⟨hi0.1, fun _ => ⟨hi0, rfl⟩, ho0.1, hF.congr fun j kl a _ _ _ => by rw [if_neg (by omega)]⟩
    (by
      intro k s b1 b2 hs
      obtain ⟨s1, s2, s3, s4⟩ := s
      obtain ⟨-, hs, hs3, hs4⟩ := hs
      obtain ⟨hs1, hs2⟩ := hs (by omega)
      dsimp only at hs1 hs2 hs3 hs4
      unfold densitySurface
      dsimp only
      rw [hq'.get (j := k) (by omega) (by omega), outerRoot_ok hr hq 1 b1 (Or.inl b2)]
      dsimp only [Outcome.bind_ok]
      obtain ⟨w, ew, hw⟩ : ∃ w, outerSide c r half k s3 = .ok w ∧ Full w c.nZnT (outSide c.ns H k) := by
        unfold outerSide
        by_cases h : k < r.nsMaxH
        · rw [if_pos h]
          obtain ⟨w, e, hw⟩ := fillSide_ok hc hh (j := k) (by omega) h hs3
          refine ⟨w, e, hw.congr fun i _ _ => ?_⟩
          unfold outSide
          rw [if_pos (by omega)]
        · rw [if_neg h]
          obtain ⟨w, e, hw⟩ := zeroSide_ok hc hs3
          refine ⟨w, e, hw.congr fun i _ _ => ?_⟩
          unfold outSide
          rw [if_neg (by omega)]
      rw [ew]
      dsimp only [Outcome.bind_ok]
      obtain ⟨u, eu, hu⟩ := row_fill (j := k) (fun kl out => do
          let i ← s1.get kl
          let o ← w.get kl
          let g ← geo.get ((k - r.nsMinF1) * c.nZnT + kl)
          let old ← out.get ((k - r.nsMinF) * c.nZnT + kl)
          out.set ((k - r.nsMinF) * c.nZnT + kl)
            (densityPoint c.lthreed c.deltaS (qF k * qF k) s2 (if k < c.ns - 1 then qH k else 1) i o g old))
        (fun kl => forceAt c H X qH qF k kl (F0 k kl)) hs4 b1 (by omega) (by
          intro kl u K k1 k2 hu hK
          rw [hs1.get k1 k2, hw.get k1 k2, hg.get (by omega) (by omega) k1 k2, hu.get b1 (by omega) k1 k2, hK,
            if_neg (by omega), hs2]
          rfl)
      rw [eu]
      dsimp only [Outcome.bind_ok]
      obtain ⟨x, ex, hx⟩ := full_fill (fun kl ins => do
          let o ← w.get kl
          ins.set kl o) (outSide c.ns H k) hc.points hs1.1 (by
          intro kl u K k1 k2 _ _
          rw [hw.get k1 k2]
          rfl)
      rw [ex]
      refine ⟨_, rfl, hx.1, fun hk => ⟨hx.congr fun kl _ _ => ?_, ?_⟩, hw.1, hu.congr fun j kl _ _ _ _ => ?_⟩
      · unfold outSide inSide
        rw [add_sub_cancel_right, if_pos (show 0 < k + 1 by omega), if_pos (by omega)]
      · dsimp only
        rw [add_sub_cancel_right, if_pos (show 0 < k + 1 by omega), if_pos (by omega)]
      · by_cases e : j = k
        · subst e; rw [if_pos rfl, if_pos (by omega)]
        · rw [if_neg e]
          by_cases e2 : j < k
          · rw [if_pos e2, if_pos (by omega)]
          · rw [if_neg e2, if_neg (by omega)])
  rw [e]
  exact ⟨s.2.2.2, rfl, hs4⟩

/-! ## lambda force -/

/-- what the kernel keeps of the inner half-grid point -/
noncomputable def lamIn (H : Int → Int → Half) (j kl : Int) : LamIn :=
  if 0 < j then ⟨(H (j - 1) kl).bsubu, (H (j - 1) kl).bsubv, (H (j - 1) kl).gvv / (H (j - 1) kl).gsqrt,
    (H (j - 1) kl).guv * (H (j - 1) kl).bsupu⟩ else ⟨0, 0, 0, 0⟩

/-- the lambda force of a point -/
noncomputable def lamAt (c : Ctx) (H : Int → Int → Half) (X : Int → Int → Geo) (qH qF blend : Int → ℝ) (j kl : Int)
    (old : Lam) : Lam :=
  (lamPoint c.lthreed c.lamscale j (if j < c.ns - 1 then some (H j kl) else none) (lamIn H j kl) (X j kl)
    (if 0 < j then qH (j - 1) else 0) (if j < c.ns - 1 then qH j else 0) (qF j) (blend j) old).1

/-- entries that enter the result -/
def LamIn.agree (lthreed : Bool) (a b : LamIn) : Prop :=
  a.bsubv = b.bsubv ∧ a.gvv_gsqrt = b.gvv_gsqrt ∧ (lthreed → a = b)

theorem lamPoint_agree {lthreed : Bool} {a b : LamIn} (h : a.agree lthreed b) (lamscale : ℝ) (j : Int) (o : Option Half)
    (g : Geo) (si so sf bl : ℝ) (old : Lam) :
    (lamPoint lthreed lamscale j o a g si so sf bl old).1 = (lamPoint lthreed lamscale j o b g si so sf bl old).1 := by
  obtain ⟨h1, h2, h3⟩ := h
  cases lthreed
  · unfold lamPoint; simp [h1, h2]
  · rw [h3 rfl]

theorem lambda_ok (hc : GoodCtx c) (hr : Good c.ns lfreeb r)
    (hh : Holds half r.nsMinH r.nsMaxH c.nZnT H) (hg : Holds geo r.nsMinF1 r.nsMaxF1 c.nZnT X)
    (hq : Holds1 sqrtSH r.nsMinH r.nsMaxH qH) (hq' : Holds1 sqrtSF r.nsMinF1 r.nsMaxF1 qF)
    {radialBlending : Vec ℝ} {bl : Int → ℝ} (hb : Holds1 radialBlending r.nsMinF1 r.nsMaxF1 bl)
    {scratch : Vec LamIn} (hi : scratch.size = c.nZnT) {out : Vec Lam} {L0 : Int → Int → Lam}
    (hL : Holds out r.nsMinF r.nsMaxFIncludingLcfs c.nZnT L0) :
    ∃ out', hybridLambdaForce c r half geo sqrtSH sqrtSF radialBlending scratch out = .ok out' ∧
      Holds out' r.nsMinF r.nsMaxFIncludingLcfs c.nZnT (fun j kl => lamAt c H X qH qF bl j kl (L0 j kl)) := by
  have h := hr
  obtain ⟨a1, a2, a3, a4, a5, a6, a7, a8, a9, a10, a11, a12⟩ := h
  have hd := hr.dist
  have hl : r.nsMaxFIncludingLcfs ≤ r.nsMaxF1 ∧ r.nsMinF ≤ r.nsMaxFIncludingLcfs := by rw [a11]; split <;> omega
  unfold hybridLambdaForce
  have e1 : lamRoot r sqrtSH = .ok (if 0 < r.nsMinF then qH (r.nsMinF - 1) else 0) := by
    unfold lamRoot
    by_cases h : 0 < r.nsMinF
    · rw [if_pos h, if_pos h, hq.get (by omega) (by omega)]
    · rw [if_neg h, if_neg h]
  rw [e1]
  dsimp only [Outcome.bind_ok]
  obtain ⟨i0, e2, hi0⟩ : ∃ w, lamFirst c r half scratch = .ok w ∧ w.size = c.nZnT ∧
      ∀ kl, 0 ≤ kl → kl < c.nZnT → (w.val kl).agree c.lthreed (lamIn H r.nsMinF kl) := by
    have hfill : ∃ w, lamFirst c r half scratch = .ok w ∧ Full w c.nZnT (fun kl => if r.nsMinF = 0 then ⟨0, 0, 0, 0⟩
        else ⟨(H (r.nsMinF - 1) kl).bsubu, (H (r.nsMinF - 1) kl).bsubv, (H (r.nsMinF - 1) kl).gvv / (H (r.nsMinF - 1) kl).gsqrt,
          if c.lthreed then (H (r.nsMinF - 1) kl).guv * (H (r.nsMinF - 1) kl).bsupu else (scratch.val kl).guv_bsupu⟩) := by
      unfold lamFirst
      refine full_fill _ _ hc.points hi fun kl w K k1 k2 hw hK => ?_
      by_cases h : r.nsMinF = 0
      · rw [if_pos h, if_pos h]
      · rw [if_neg h, if_neg h, hh.get (by omega) (by omega) k1 k2, hw.get k1 k2, hK]
        rfl
    obtain ⟨w, e, hw⟩ := hfill
    refine ⟨w, e, hw.1, fun kl k1 k2 => ?_⟩
    rw [hw.2 kl k1 k2]
    unfold lamIn LamIn.agree
    beta_reduce
    by_cases h : r.nsMinF = 0
    · rw [if_pos h, if_neg (by omega)]; simp
    · have hpos : 0 < r.nsMinF := by omega
      simp only [if_neg h, if_pos hpos]
      refine ⟨trivial, trivial, fun h3 => ?_⟩
      rw [if_pos h3]
  rw [e2]
  dsimp only [Outcome.bind_ok]
  obtain ⟨s, e, -, -, hs4⟩ := forRangeM_inv (lo := r.nsMinF) (hi := r.nsMaxFIncludingLcfs) hl.2
    (lamSurface c r half geo sqrtSH sqrtSF radialBlending) (i0, (if 0 < r.nsMinF then qH (r.nsMinF - 1) else 0), out)
    (fun (k : Int) (s : Vec LamIn × ℝ × Vec Lam) => s.1.size = c.nZnT ∧
      (k < c.ns → (∀ kl, 0 ≤ kl → kl < c.nZnT → (s.1.val kl).agree c.lthreed (lamIn H k kl)) ∧
        s.2.1 = (if 0 < k then qH (k - 1) else 0)) ∧
      Holds s.2.2 r.nsMinF r.nsMaxFIncludingLcfs c.nZnT
        (fun j kl => if j < k then lamAt c H X qH qF bl j kl (L0 j kl) else L0 j kl))
    ⟨hi0.1, fun _ => ⟨hi0.2, rfl⟩, hL.congr fun j kl a _ _ _ => by rw [if_neg (by omega)]⟩
    (by
      intro k s b1 b2 hs
      obtain ⟨s1, s2, s4⟩ := s
      obtain ⟨hs0, hs, hs4⟩ := hs
      obtain ⟨hs1, hs2⟩ := hs (by omega)
      dsimp only at hs0 hs1 hs2 hs4
      unfold lamSurface
      dsimp only
      rw [outerRoot_ok hr hq 0 b1 (Or.inr b2)]
      dsimp only [Outcome.bind_ok]
      have ho : ∀ kl, 0 ≤ kl → kl < c.nZnT →
          outerHalf c r half k kl = .ok (if k < c.ns - 1 then some (H k kl) else none) := by
        intro kl k1 k2
        have e : k < r.nsMaxH ↔ k < c.ns - 1 := by
          rw [a11] at b2; split at b2 <;> omega
        unfold outerHalf
        by_cases h : k < r.nsMaxH
        · rw [if_pos h, if_pos (e.1 h), hh.get (by omega) h k1 k2]; rfl
        · rw [if_neg h, if_neg (fun x => h (e.2 x))]
      obtain ⟨t, et, ht1, ht2, ht3⟩ := forRangeM_inv (lo := 0) (hi := c.nZnT) hc.points
        (fun kl (t : Vec LamIn × Vec Lam) => do
          let h ← outerHalf c r half k kl
          let i ← t.1.get kl
          let g ← geo.get ((k - r.nsMinF1) * c.nZnT + kl)
          let b ← radialBlending.get (k - r.nsMinF1)
          let f ← sqrtSF.get (k - r.nsMinF1)
          let old ← t.2.get ((k - r.nsMinF) * c.nZnT + kl)
          let new := lamPoint c.lthreed c.lamscale k h i g s2 (if k < c.ns - 1 then qH k else 0) f b old
          let out ← t.2.set ((k - r.nsMinF) * c.nZnT + kl) new.1
          let ins ← t.1.set kl new.2
          .ok (ins, out)) (s1, s4)
        (fun (m : Int) (t : Vec LamIn × Vec Lam) => t.1.size = c.nZnT ∧
          (∀ kl, 0 ≤ kl → kl < c.nZnT → if kl < m then (k + 1 < c.ns → (t.1.val kl).agree c.lthreed (lamIn H (k + 1) kl))
            else (t.1.val kl).agree c.lthreed (lamIn H k kl)) ∧
          Holds t.2 r.nsMinF r.nsMaxFIncludingLcfs c.nZnT
            (fun j kl => if j < k ∨ (j = k ∧ kl < m) then lamAt c H X qH qF bl j kl (L0 j kl) else L0 j kl))
        ⟨hs0, fun kl k1 k2 => by rw [if_neg (by omega)]; exact hs1 kl k1 k2, hs4.congr fun j kl _ _ h _ => by
          by_cases e : j < k
          · rw [if_pos e, if_pos (Or.inl e)]
          · rw [if_neg e, if_neg (by omega)]⟩
        (by
          intro m t m1 m2 ht
          obtain ⟨t1, t2⟩ := t
          obtain ⟨ht0, ht1, ht2⟩ := ht
          dsimp only at ht0 ht1 ht2
          have hin : (t1.val m).agree c.lthreed (lamIn H k m) := by
            have := ht1 m m1 m2; rwa [if_neg (by omega)] at this
          beta_reduce
          rw [ho m m1 m2, Vec.get_ok _ _ m1 (by rw [ht0]; exact m2), hg.get (by omega) (by omega) m1 m2,
            hb.get (by omega) (by omega), hq'.get (by omega) (by omega), ht2.get b1 b2 m1 m2,
            if_neg (show ¬(k < k ∨ (k = k ∧ m < m)) by omega)]
          dsimp only [Outcome.bind_ok]
          obtain ⟨u, eu, hu⟩ := ht2.set b1 b2 m1 m2 (lamPoint c.lthreed c.lamscale k (if k < c.ns - 1 then some (H k m) else none)
            (t1.val m) (X k m) s2 (if k < c.ns - 1 then qH k else 0) (qF k) (bl k) (L0 k m)).1
          rw [eu]
          dsimp only [Outcome.bind_ok]
          rw [Vec.set_ok _ _ _ m1 (by rw [ht0]; exact m2)]
          refine ⟨_, rfl, ht0, fun kl k1 k2 => ?_, hu.congr fun j kl _ _ _ _ => ?_⟩
          · dsimp only
            by_cases e : kl = m
            · subst e
              rw [if_pos (by omega), upd_same]
              intro hk
              have hk' : k < c.ns - 1 := by omega
              unfold lamIn LamIn.agree lamPoint
              rw [if_pos (show 0 < k + 1 by omega), add_sub_cancel_right]
              simp only [if_pos hk']
              cases h3 : c.lthreed <;> simp
            · rw [upd_ne _ _ e]
              have := ht1 kl k1 k2
              by_cases e2 : kl < m
              · rw [if_pos (by omega)]; rwa [if_pos e2] at this
              · rw [if_neg (by omega)]; rwa [if_neg e2] at this
          · by_cases e : j = k ∧ kl = m
            · obtain ⟨rfl, rfl⟩ := e
              rw [if_pos ⟨rfl, rfl⟩, if_pos (Or.inr ⟨rfl, by omega⟩)]
              unfold lamAt
              rw [lamPoint_agree hin, hs2]
            · rw [if_neg e]
              by_cases e2 : j < k ∨ (j = k ∧ kl < m)
              · rw [if_pos e2, if_pos (by omega)]
              · rw [if_neg e2, if_neg (by omega)])
      rw [et]
      refine ⟨_, rfl, ht1, fun hk => ⟨fun kl k1 k2 => ?_, ?_⟩, ht3.congr fun j kl _ _ _ h => ?_⟩
      · have := ht2 kl k1 k2
        rw [if_pos k2] at this
        exact this hk
      · dsimp only
        rw [add_sub_cancel_right, if_pos (show 0 < k + 1 by omega), if_pos (by omega)]
      · by_cases e2 : j < k + 1
        · rw [if_pos e2, if_pos (by omega)]
        · rw [if_neg e2, if_neg (by omega)])
  rw [e]
  exact ⟨s.2.2, rfl, hs4.congr fun j kl _ h _ _ => by rw [if_pos h]⟩

end Verif.Kernels
