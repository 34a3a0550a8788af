import Verif.Kernels.Lemmas

/-!
# The half-grid kernels on the window of a thread
-/
namespace Verif.Kernels
open Verif Verif.Partition Finset

variable {c : Ctx} {r : Ranges} {lfreeb : Bool} {G : Int → Int → Geo} {H : Int → Int → Half}
variable {geo : Vec Geo} {half : Vec Half} {sqrtSH sqrtSF : Vec ℝ} {sH sF : Int → ℝ}

theorem Good.window {ns : Int} {lfreeb : Bool} (hr : Good ns lfreeb r) :
    r.nsMinH = r.nsMinF1 ∧ r.nsMaxH + 1 = r.nsMaxF1 ∧ r.nsMinH ≤ r.nsMaxH := by
  have := hr.minH; have := hr.maxH; have := hr.minF1; have := hr.maxF1; have := hr.maxF; have := hr.ns3
  have := hr.minF
  have := hr.maxF_le
  have := hr.dist
  omega

/-- a half-grid kernel that replaces every point from its two neighbours on the full grid -/
theorem half_kernel (hr : Good c.ns lfreeb r) (hg : Holds geo r.nsMinF1 r.nsMaxF1 c.nZnT G)
    (hh : Holds half r.nsMinH r.nsMaxH c.nZnT H) (pt : Int → Geo → Geo → Half → Half)
    (F : Int → Vec Half → Outcome (Vec Half))
    (hF : ∀ j w, r.nsMinH ≤ j → j < r.nsMaxH → F j w =
      forRangeM 0 c.nZnT (fun kl half => do
        let gi ← geo.get ((j - r.nsMinF1) * c.nZnT + kl)
        let go ← geo.get ((j + 1 - r.nsMinF1) * c.nZnT + kl)
        let h ← half.get ((j - r.nsMinH) * c.nZnT + kl)
        half.set ((j - r.nsMinH) * c.nZnT + kl) (pt j gi go h)) w) :
    ∃ half', forRangeM r.nsMinH r.nsMaxH F half = .ok half' ∧
      Holds half' r.nsMinH r.nsMaxH c.nZnT (fun j kl => pt j (G j kl) (G (j + 1) kl) (H j kl)) := by
  obtain ⟨w1, w2, w3⟩ := hr.window
  obtain ⟨w, e, hw⟩ := rows_fill F (fun j kl => pt j (G j kl) (G (j + 1) kl) (H j kl)) hh (by
    intro j w K h1 h2 hw hK
    rw [hF j w h1 h2]
    refine row_fill (G := K) _ (fun kl => pt j (G j kl) (G (j + 1) kl) (H j kl)) hw h1 h2 ?_
    · intro kl u K' k1 k2 hu hK'
      rw [hg.get (by omega) (by omega) k1 k2, hg.get (by omega) (by omega) k1 k2, hu.get h1 h2 k1 k2, hK', hK kl k1 k2]
      rfl)
  exact ⟨w, e, hw.congr fun j kl h1 h2 _ _ => by rw [if_pos ⟨h1, h2⟩]⟩

theorem jacobian_ok (hr : Good c.ns lfreeb r) (hg : Holds geo r.nsMinF1 r.nsMaxF1 c.nZnT G)
    (hs : Holds1 sqrtSH r.nsMinH r.nsMaxH sH) (hh : Holds half r.nsMinH r.nsMaxH c.nZnT H) :
    ∃ half', computeJacobian c r geo sqrtSH half = .ok half' ∧ Holds half' r.nsMinH r.nsMaxH c.nZnT
      (fun j kl => jacobianPoint c.deltaS (sH j) (G j kl) (G (j + 1) kl) (H j kl)) := by
  refine half_kernel hr hg hh (fun j => jacobianPoint c.deltaS (sH j)) _ fun j w h1 h2 => ?_
  rw [hs.get h1 h2]
  rfl

theorem metric_ok (hr : Good c.ns lfreeb r) (hg : Holds geo r.nsMinF1 r.nsMaxF1 c.nZnT G)
    (hs : Holds1 sqrtSH r.nsMinH r.nsMaxH sH) (hf : Holds1 sqrtSF r.nsMinF1 r.nsMaxF1 sF)
    (hh : Holds half r.nsMinH r.nsMaxH c.nZnT H) :
    ∃ half', computeMetricElements c r geo sqrtSF sqrtSH half = .ok half' ∧ Holds half' r.nsMinH r.nsMaxH c.nZnT
      (fun j kl => metricPoint c.lthreed (sF j * sF j) (sF (j + 1) * sF (j + 1)) (sH j) (G j kl) (G (j + 1) kl)
        (H j kl)) := by
  obtain ⟨w1, w2, w3⟩ := hr.window
  refine half_kernel hr hg hh
    (fun j => metricPoint c.lthreed (sF j * sF j) (sF (j + 1) * sF (j + 1)) (sH j)) _ fun j w h1 h2 => ?_
  rw [hs.get h1 h2, hf.get (by omega) (by omega), hf.get (by omega) (by omega)]
  rfl

theorem bcontra_ok (hr : Good c.ns lfreeb r) (hg : Holds geo r.nsMinF1 r.nsMaxF1 c.nZnT G)
    (hs : Holds1 sqrtSH r.nsMinH r.nsMaxH sH) (hh : Holds half r.nsMinH r.nsMaxH c.nZnT H) :
    ∃ half', computeBsupContra c r geo sqrtSH half = .ok half' ∧ Holds half' r.nsMinH r.nsMaxH c.nZnT
      (fun j kl => bcontraPoint c.lthreed (sH j) (G j kl) (G (j + 1) kl) (H j kl)) := by
  refine half_kernel hr hg hh (fun j => bcontraPoint c.lthreed (sH j)) _ fun j w h1 h2 => ?_
  rw [hs.get h1 h2]
  rfl

/-- every surface of the window is scaled exactly once -/
theorem scaleLambda_ok (hr : Good c.ns lfreeb r) (hg : Holds geo r.nsMinF1 r.nsMaxF1 c.nZnT G) {phipF : Vec ℝ}
    {p : Int → ℝ} (hp : Holds1 phipF r.nsMinF1 r.nsMaxF1 p) :
    ∃ geo', scaleLambda c r phipF geo = .ok geo' ∧ Holds geo' r.nsMinF1 r.nsMaxF1 c.nZnT
      (fun j kl => lambdaPoint c.lthreed c.lamscale (p j) (G j kl)) := by
  obtain ⟨w1, w2, w3⟩ := hr.window
  have hF1 : r.nsMinF1 < r.nsMaxF1 := by omega
  unfold scaleLambda
  obtain ⟨g1, e1, h1⟩ := row_fill (fun kl geo => do
      let g ← geo.get ((r.nsMinH - r.nsMinF1) * c.nZnT + kl)
      let p ← phipF.get (r.nsMinH - r.nsMinF1)
      geo.set ((r.nsMinH - r.nsMinF1) * c.nZnT + kl) (lambdaPoint c.lthreed c.lamscale p g))
    (fun kl => lambdaPoint c.lthreed c.lamscale (p r.nsMinH) (G r.nsMinH kl)) hg (j := r.nsMinH) (by omega) (by omega)
    (by
      intro kl u K k1 k2 hu hK
      rw [hu.get (by omega) (by omega) k1 k2, hK, hp.get (by omega) (by omega)]
      rfl)
  dsimp only
  rw [e1]
  dsimp only [Outcome.bind_ok]
  -- the loop runs over `jH`, surface `jH + 1` is replaced
  have key := forRangeM_inv (lo := r.nsMinH) (hi := r.nsMaxH) w3 (fun jH geo =>
    forRangeM 0 c.nZnT (fun kl (geo : Vec Geo) => do
      let g ← geo.get ((jH + 1 - r.nsMinF1) * c.nZnT + kl)
      let p ← phipF.get (jH + 1 - r.nsMinH)
      geo.set ((jH + 1 - r.nsMinF1) * c.nZnT + kl) (lambdaPoint c.lthreed c.lamscale p g)) geo) g1
    (fun (k : Int) (w : Vec Geo) => Holds w r.nsMinF1 r.nsMaxF1 c.nZnT
      (fun j kl => if j ≤ k then lambdaPoint c.lthreed c.lamscale (p j) (G j kl) else G j kl))
    (h1.congr fun j kl a b _ _ => by
      by_cases e : j = r.nsMinH
      · subst e; simp
      · rw [if_neg e, if_neg (by omega)])
    (by
      intro k w a b hw
      obtain ⟨w', e', hw'⟩ := row_fill (fun kl (geo : Vec Geo) => do
          let g ← geo.get ((k + 1 - r.nsMinF1) * c.nZnT + kl)
          let p ← phipF.get (k + 1 - r.nsMinH)
          geo.set ((k + 1 - r.nsMinF1) * c.nZnT + kl) (lambdaPoint c.lthreed c.lamscale p g))
        (fun kl => lambdaPoint c.lthreed c.lamscale (p (k + 1)) (G (k + 1) kl)) hw (j := k + 1) (by omega) (by omega)
        (by
          intro kl u K k1 k2 hu hK
          rw [if_neg (by omega)] at hK
          rw [hu.get (by omega) (by omega) k1 k2, hK, w1, hp.get (by omega) (by omega)]
          rfl)
      refine ⟨w', e', hw'.congr fun j kl _ _ _ _ => ?_⟩
      by_cases e : j = k + 1
      · subst e; simp
      · rw [if_neg e]
        by_cases e2 : j ≤ k
        · rw [if_pos e2, if_pos (by omega)]
        · rw [if_neg e2, if_neg (by omega)])
  obtain ⟨w, e, hw⟩ := key
  exact ⟨w, e, hw.congr fun j kl _ _ _ _ => by rw [if_pos (by omega)]⟩

/-- a half-grid kernel that replaces every point from itself -/
theorem pointwise_ok (hh : Holds half r.nsMinH r.nsMaxH c.nZnT H) (hn : 0 ≤ c.nZnT) (hw : r.nsMinH ≤ r.nsMaxH)
    (pt : Half → Half) :
    ∃ half', forRangeM 0 half.size (fun i (w : Vec Half) => do
        let h ← w.get i
        w.set i (pt h)) half = .ok half' ∧
      Holds half' r.nsMinH r.nsMaxH c.nZnT (fun j kl => pt (H j kl)) := by
  have hs : 0 ≤ half.size := by rw [hh.1]; exact mul_nonneg (by omega) hn
  obtain ⟨w, e, h1, h2⟩ := forRangeM_inv (lo := 0) (hi := half.size) hs (fun i (w : Vec Half) => do
        let h ← w.get i
        w.set i (pt h)) half
    (fun (k : Int) (w : Vec Half) => w.size = half.size ∧
      ∀ i, w.val i = if 0 ≤ i ∧ i < k then pt (half.val i) else half.val i)
    ⟨rfl, fun i => by rw [if_neg (by omega)]⟩
    (by
      intro k w a b hw
      refine ⟨⟨w.size, upd w.val k (pt (half.val k))⟩, ?_, hw.1, fun i => ?_⟩
      · rw [Vec.get_ok _ _ a (by rw [hw.1]; exact b), hw.2 k, if_neg (by omega)]
        exact Vec.set_ok _ _ _ a (by rw [hw.1]; exact b)
      · dsimp only
        by_cases e : i = k
        · subst e; rw [upd_same, if_pos (by omega)]
        · rw [upd_ne _ _ e, hw.2 i]
          by_cases e2 : 0 ≤ i ∧ i < k
          · rw [if_pos e2, if_pos (by omega)]
          · rw [if_neg e2, if_neg (by omega)])
  refine ⟨w, e, h1.trans hh.1, fun j kl a b c' d => ?_⟩
  have hb := idx_bound (n := c.nZnT) a b c' d
  rw [h2, if_pos ⟨hb.1, by rw [hh.1]; exact hb.2⟩, hh.2 j kl a b c' d]

theorem bco_ok (hh : Holds half r.nsMinH r.nsMaxH c.nZnT H) (hc : GoodCtx c) (hr : Good c.ns lfreeb r) :
    ∃ half', computeBCo c half = .ok half' ∧
      Holds half' r.nsMinH r.nsMaxH c.nZnT (fun j kl => bcoPoint c.lthreed (H j kl)) :=
  pointwise_ok hh hc.points hr.window.2.2 _

theorem magneticPressure_ok (hh : Holds half r.nsMinH r.nsMaxH c.nZnT H) (hc : GoodCtx c) (hr : Good c.ns lfreeb r) :
    ∃ half', computeMagneticPressure half = .ok half' ∧ Holds half' r.nsMinH r.nsMaxH c.nZnT (fun j kl =>
      { H j kl with totalPressure :=
        0.5 * ((H j kl).bsupu * (H j kl).bsubu + (H j kl).bsupv * (H j kl).bsubv) }) :=
  pointwise_ok hh hc.points hr.window.2.2
    (fun h => { h with totalPressure := 0.5 * (h.bsupu * h.bsubu + h.bsupv * h.bsubv) })

/-- sum over one entry of an array with one value per surface -/
theorem accumulate {M : Type} [AddCommMonoid M] {v : Vec M} {lo hi n j : Int} {g : Int → M} (hv : Holds1 v lo hi g)
    (h1 : lo ≤ j) (h2 : j < hi) (hn : 0 ≤ n) (f : Int → Vec M → Outcome (Vec M)) (t : Int → M)
    (hf : ∀ kl w K, 0 ≤ kl → kl < n → Holds1 w lo hi K → f kl w = w.set (j - lo) (K j + t kl)) :
    ∃ w, forRangeM 0 n f v = .ok w ∧
      Holds1 w lo hi (fun j' => if j' = j then g j + ∑ kl ∈ Ico 0 n, t kl else g j') := by
  exact forRangeM_inv (lo := 0) (hi := n) hn f v
    (fun (k : Int) (w : Vec M) => Holds1 w lo hi (fun j' => if j' = j then g j + ∑ kl ∈ Ico 0 k, t kl else g j'))
    (hv.congr fun j' _ _ => by
      by_cases e : j' = j
      · subst e; simp
      · rw [if_neg e])
    (by
      intro k w a b hw
      obtain ⟨w', e', hw'⟩ := hw.set h1 h2 ((g j + ∑ kl ∈ Ico 0 k, t kl) + t k)
      refine ⟨w', (hf k w _ a b hw).trans (by rw [if_pos rfl]; exact e'), hw'.congr fun j' _ _ => ?_⟩
      by_cases e : j' = j
      · subst e; rw [if_pos rfl, if_pos rfl, sum_Ico_int_succ a, add_assoc]
      · rw [if_neg e, if_neg e, if_neg e])

theorem diffVolume_ok (hc : GoodCtx c) (hh : Holds half r.nsMinH r.nsMaxH c.nZnT H) {dVdsH : Vec ℝ} {V : Int → ℝ}
    (hv : Holds1 dVdsH r.nsMinH r.nsMaxH V) :
    ∃ v, updateDifferentialVolume c r half dVdsH = .ok v ∧ Holds1 v r.nsMinH r.nsMaxH
      (fun j => (∑ kl ∈ Ico 0 c.nZnT, (H j kl).gsqrt * wt c kl) * c.signOfJacobian) := by
  unfold updateDifferentialVolume
  obtain ⟨w, e, hw⟩ := fill1 (fun jH dVdsH => do
    let dVdsH ← dVdsH.set (jH - r.nsMinH) 0
    let dVdsH ← forRangeM 0 c.nZnT (fun kl dVdsH => do
      let h ← half.get ((jH - r.nsMinH) * c.nZnT + kl)
      let w ← weight c kl
      let v ← dVdsH.get (jH - r.nsMinH)
      dVdsH.set (jH - r.nsMinH) (v + h.gsqrt * w)) dVdsH
    let v ← dVdsH.get (jH - r.nsMinH)
    dVdsH.set (jH - r.nsMinH) (v * c.signOfJacobian))
    (fun j => (∑ kl ∈ Ico 0 c.nZnT, (H j kl).gsqrt * wt c kl) * c.signOfJacobian) hv (le_refl _) (le_refl _) (by
      intro j w K h1 h2 hw _
      obtain ⟨u1, e1, k1⟩ := hw.set h1 h2 (0 : ℝ)
      rw [e1]
      dsimp only [Outcome.bind_ok]
      obtain ⟨u2, e2, k2⟩ := accumulate k1 h1 h2 hc.points (fun kl (dVdsH : Vec ℝ) => do
          let h ← half.get ((j - r.nsMinH) * c.nZnT + kl)
          let w ← weight c kl
          let v ← dVdsH.get (j - r.nsMinH)
          dVdsH.set (j - r.nsMinH) (v + h.gsqrt * w)) (fun kl => (H j kl).gsqrt * wt c kl) (by
        intro kl u K' l1 l2 hu
        rw [hh.get h1 h2 l1 l2, weight_ok hc l1, hu.get h1 h2]
        rfl)
      rw [e2]
      dsimp only [Outcome.bind_ok]
      rw [k2.get h1 h2, if_pos rfl, if_pos rfl, zero_add]
      dsimp only [Outcome.bind_ok]
      obtain ⟨u3, e3, k3⟩ := k2.set h1 h2 ((∑ kl ∈ Ico 0 c.nZnT, (H j kl).gsqrt * wt c kl) * c.signOfJacobian)
      refine ⟨u3, e3, k3.congr fun j' _ _ => ?_⟩
      by_cases e : j' = j
      · rw [if_pos e, if_pos e]
      · rw [if_neg e, if_neg e, if_neg e, if_neg e])
  exact ⟨w, e, hw.congr fun j a b => by rw [if_pos ⟨a, b⟩]⟩

end Verif.Kernels
