import Verif.Kernels.Half

/-!
# Field, pressure and energies on the window of a thread
-/
namespace Verif.Kernels
open Verif Verif.Partition Finset

variable {c : Ctx} {r : Ranges} {lfreeb : Bool} {H : Int → Int → Half} {half : Vec Half}

/-- surface integrals of `ideal_mhd_model.cc:1822-1834` -/
noncomputable def jvOf (c : Ctx) (H : Int → Half) : ℝ :=
  ∑ kl ∈ Ico 0 c.nZnT, (if c.lthreed then ((H kl).guu * (H kl).bsupu + (H kl).guv * (H kl).bsupv) * wt c kl
    else (H kl).guu * (H kl).bsupu * wt c kl)
noncomputable def avgOf (c : Ctx) (H : Int → Half) : ℝ :=
  ∑ kl ∈ Ico 0 c.nZnT, (H kl).guu / (H kl).gsqrt * wt c kl

theorem currentSums_ok (hc : GoodCtx c) (hh : Holds half r.nsMinH r.nsMaxH c.nZnT H) {j : Int} (h1 : r.nsMinH ≤ j)
    (h2 : j < r.nsMaxH) : currentSums c r half j = .ok (jvOf c (H j), avgOf c (H j)) := by
  unfold currentSums jvOf avgOf
  rw [sumM (n := c.nZnT) _ (fun kl => ((if c.lthreed then ((H j kl).guu * (H j kl).bsupu + (H j kl).guv * (H j kl).bsupv) * wt c kl
      else (H j kl).guu * (H j kl).bsupu * wt c kl), (H j kl).guu / (H j kl).gsqrt * wt c kl)) hc.points]
  · rw [Prod.mk_zero_zero, zero_add]
    congr 1
    exact Prod.ext (Prod.fst_sum ..) (Prod.snd_sum ..)
  · intro kl s k1 k2
    rw [hh.get h1 h2 k1 k2, weight_ok hc k1]
    rfl

/-- the new poloidal flux derivative and iota of a surface -/
noncomputable def chipOf (c : Ctx) (I phip chip iota : ℝ) (H : Int → Half) : ℝ :=
  if c.ncurr1 then (if avgOf c H ≠ 0 then (I - jvOf c H) / avgOf c H else chip) else iota * phip
noncomputable def iotaOf (c : Ctx) (I phip chip iota : ℝ) (H : Int → Half) : ℝ :=
  if c.ncurr1 then (if phip ≠ 0 then chipOf c I phip chip iota H / phip else iota) else iota

theorem flux_ok (hc : GoodCtx c) (hr : Good c.ns lfreeb r) (hh : Holds half r.nsMinH r.nsMaxH c.nZnT H)
    {currH phipH chipH iotaH : Vec ℝ} {I phip chip iota : Int → ℝ} (hI : Holds1 currH r.nsMinH r.nsMaxH I)
    (hp : Holds1 phipH r.nsMinH r.nsMaxH phip) (hx : Holds1 chipH r.nsMinH r.nsMaxH chip)
    (hi : Holds1 iotaH r.nsMinH r.nsMaxH iota) :
    ∃ chipH' iotaH', fluxFromCurrent c r half currH phipH chipH iotaH = .ok (chipH', iotaH') ∧
      Holds1 chipH' r.nsMinH r.nsMaxH (fun j => chipOf c (I j) (phip j) (chip j) (iota j) (H j)) ∧
      Holds1 iotaH' r.nsMinH r.nsMaxH (fun j => iotaOf c (I j) (phip j) (chip j) (iota j) (H j)) := by
  obtain ⟨w1, w2, w3⟩ := hr.window
  suffices h : ∃ s, fluxFromCurrent c r half currH phipH chipH iotaH = .ok s ∧
      (Holds1 s.1 r.nsMinH r.nsMaxH (fun j => if j < r.nsMaxH then chipOf c (I j) (phip j) (chip j) (iota j) (H j) else chip j) ∧
      Holds1 s.2 r.nsMinH r.nsMaxH (fun j => if j < r.nsMaxH then iotaOf c (I j) (phip j) (chip j) (iota j) (H j) else iota j)) by
    obtain ⟨s, e, k1, k2⟩ := h
    exact ⟨s.1, s.2, e, k1.congr fun j _ b => if_pos b, k2.congr fun j _ b => if_pos b⟩
  have start1 : Holds1 chipH r.nsMinH r.nsMaxH
      (fun j => if j < r.nsMinH then chipOf c (I j) (phip j) (chip j) (iota j) (H j) else chip j) :=
    hx.congr fun j a _ => by rw [if_neg (by omega)]
  have start2 : Holds1 iotaH r.nsMinH r.nsMaxH
      (fun j => if j < r.nsMinH then iotaOf c (I j) (phip j) (chip j) (iota j) (H j) else iota j) :=
    hi.congr fun j a _ => by rw [if_neg (by omega)]
  have next : ∀ {v : Vec ℝ} {k : Int} {f g : Int → ℝ} {x : ℝ}, r.nsMinH ≤ k → k < r.nsMaxH →
      Holds1 v r.nsMinH r.nsMaxH (fun j => if j < k then f j else g j) → x = f k →
      ∃ w, v.set (k - r.nsMinH) x = .ok w ∧ Holds1 w r.nsMinH r.nsMaxH (fun j => if j < k + 1 then f j else g j) := by
    intro v k f g x a b hv hx
    obtain ⟨w, e, hw⟩ := hv.set a b x
    refine ⟨w, e, hw.congr fun j _ _ => ?_⟩
    by_cases e : j = k
    · subst e; rw [if_pos rfl, if_pos (by omega), hx]
    · rw [if_neg e]
      by_cases e2 : j < k
      · rw [if_pos e2, if_pos (by omega)]
      · rw [if_neg e2, if_neg (by omega)]
  have keep : ∀ {v : Vec ℝ} {k : Int} {f g : Int → ℝ}, f k = g k →
      Holds1 v r.nsMinH r.nsMaxH (fun j => if j < k then f j else g j) →
      Holds1 v r.nsMinH r.nsMaxH (fun j => if j < k + 1 then f j else g j) := by
    intro v k f g hk hv
    refine hv.congr fun j _ _ => ?_
    by_cases e : j = k
    · subst e; rw [if_neg (by omega), if_pos (by omega), hk]
    · by_cases e2 : j < k
      · rw [if_pos e2, if_pos (by omega)]
      · rw [if_neg e2, if_neg (by omega)]
  unfold fluxFromCurrent
  by_cases hn : c.ncurr1
  · rw [if_pos hn]
    refine forRangeM_inv (lo := r.nsMinH) (hi := r.nsMaxH) w3 _ (chipH, iotaH)
      (fun (k : Int) (s : Vec ℝ × Vec ℝ) =>
        Holds1 s.1 r.nsMinH r.nsMaxH (fun j => if j < k then chipOf c (I j) (phip j) (chip j) (iota j) (H j) else chip j) ∧
        Holds1 s.2 r.nsMinH r.nsMaxH (fun j => if j < k then iotaOf c (I j) (phip j) (chip j) (iota j) (H j) else iota j))
      ⟨start1, start2⟩ ?_
    intro k s a b hs
    rw [currentSums_ok hc hh a b]
    dsimp only [Outcome.bind_ok]
    obtain ⟨v, ev, hv⟩ : ∃ v, newChip r currH k (jvOf c (H k)) (avgOf c (H k)) s.1 = .ok v ∧ Holds1 v r.nsMinH r.nsMaxH
          (fun j => if j < k + 1 then chipOf c (I j) (phip j) (chip j) (iota j) (H j) else chip j) := by
      unfold newChip
      by_cases h0 : avgOf c (H k) ≠ 0
      · rw [if_pos h0, hI.get a b]
        exact next a b hs.1 (by unfold chipOf; rw [if_pos hn, if_pos h0])
      · rw [if_neg h0]
        exact ⟨_, rfl, keep (by unfold chipOf; rw [if_pos hn, if_neg h0]) hs.1⟩
    rw [ev]
    dsimp only [Outcome.bind_ok]
    obtain ⟨u, eu, hu⟩ : ∃ u, newIota r phipH v k s.2 = .ok u ∧ Holds1 u r.nsMinH r.nsMaxH
          (fun j => if j < k + 1 then iotaOf c (I j) (phip j) (chip j) (iota j) (H j) else iota j) := by
      unfold newIota
      rw [hp.get a b]
      dsimp only [Outcome.bind_ok]
      by_cases h0 : phip k ≠ 0
      · rw [if_pos h0, hv.get a b, if_pos (by omega)]
        exact next a b hs.2 (by unfold iotaOf; rw [if_pos hn, if_pos h0])
      · rw [if_neg h0]
        exact ⟨_, rfl, keep (by unfold iotaOf; rw [if_pos hn, if_neg h0]) hs.2⟩
    rw [eu]
    exact ⟨_, rfl, hv, hu⟩
  · rw [if_neg hn]
    refine forRangeM_inv (lo := r.nsMinH) (hi := r.nsMaxH) w3 _ (chipH, iotaH)
      (fun (k : Int) (s : Vec ℝ × Vec ℝ) =>
        Holds1 s.1 r.nsMinH r.nsMaxH (fun j => if j < k then chipOf c (I j) (phip j) (chip j) (iota j) (H j) else chip j) ∧
        Holds1 s.2 r.nsMinH r.nsMaxH (fun j => if j < k then iotaOf c (I j) (phip j) (chip j) (iota j) (H j) else iota j))
      ⟨start1, start2⟩ ?_
    intro k s a b hs
    rw [hs.2.get a b, if_neg (by omega), hp.get a b]
    dsimp only [Outcome.bind_ok]
    obtain ⟨v, ev, hv⟩ := next (x := iota k * phip k) a b hs.1 (by unfold chipOf; rw [if_neg hn])
    rw [ev]
    exact ⟨_, rfl, hv, keep (by unfold iotaOf; rw [if_neg hn]) hs.2⟩

theorem addChip_ok (hh : Holds half r.nsMinH r.nsMaxH c.nZnT H) {chipH : Vec ℝ} {chip : Int → ℝ}
    (hx : Holds1 chipH r.nsMinH r.nsMaxH chip) :
    ∃ half', addChip c r chipH half = .ok half' ∧ Holds half' r.nsMinH r.nsMaxH c.nZnT
      (fun j kl => { H j kl with bsupu := (H j kl).bsupu + chip j / (H j kl).gsqrt }) := by
  unfold addChip
  obtain ⟨w, e, hw⟩ := rows_fill (fun jH half =>
    forRangeM 0 c.nZnT (fun kl half => do
      let h ← half.get ((jH - r.nsMinH) * c.nZnT + kl)
      let x ← chipH.get (jH - r.nsMinH)
      half.set ((jH - r.nsMinH) * c.nZnT + kl) ({ h with bsupu := h.bsupu + x / h.gsqrt } : Half)) half)
    (fun j kl => ({ H j kl with bsupu := (H j kl).bsupu + chip j / (H j kl).gsqrt } : Half)) hh (by
      intro j w K h1 h2 hw hK
      refine row_fill (G := K) _ (fun kl => ({ H j kl with bsupu := (H j kl).bsupu + chip j / (H j kl).gsqrt } : Half)) hw h1 h2 ?_
      intro kl u K' k1 k2 hu hK'
      rw [hu.get h1 h2 k1 k2, hK', hK kl k1 k2, hx.get h1 h2]
      rfl)
  exact ⟨w, e, hw.congr fun j kl h1 h2 _ _ => by rw [if_pos ⟨h1, h2⟩]⟩

/-- the pressure profile and the thermal energy of the half-grid points a thread counts -/
theorem thermal_ok (hr : Good c.ns lfreeb r) {massH dVdsH presH : Vec ℝ} {M V p0 : Int → ℝ}
    (hm : Holds1 massH r.nsMinH r.nsMaxH M) (hv : Holds1 dVdsH r.nsMinH r.nsMaxH V)
    (hp : Holds1 presH r.nsMinH r.nsMaxH p0) :
    ∃ p, thermal c r massH dVdsH presH = .ok (p, (∑ j ∈ Ico r.nsMinH r.nsMaxH,
        if j < r.nsMaxH - 1 ∨ j = c.ns - 2 then M j / V j ^ c.adiabaticIndex * V j else 0) * c.deltaS) ∧
      Holds1 p r.nsMinH r.nsMaxH (fun j => M j / V j ^ c.adiabaticIndex) := by
  obtain ⟨w1, w2, w3⟩ := hr.window
  unfold thermal
  obtain ⟨s, e, hs1, hs2⟩ := forRangeM_inv (lo := r.nsMinH) (hi := r.nsMaxH) w3 (fun jH (s : Vec ℝ × ℝ) => do
    let m ← massH.get (jH - r.nsMinH)
    let v ← dVdsH.get (jH - r.nsMinH)
    let presH ← s.1.set (jH - r.nsMinH) (m / v ^ c.adiabaticIndex)
    if jH < r.nsMaxH - 1 ∨ jH = c.ns - 2 then do
      let p ← presH.get (jH - r.nsMinH)
      .ok (presH, s.2 + p * v)
    else .ok (presH, s.2)) (presH, 0)
    (fun (k : Int) (s : Vec ℝ × ℝ) =>
      Holds1 s.1 r.nsMinH r.nsMaxH (fun j => if j < k then M j / V j ^ c.adiabaticIndex else p0 j) ∧
      s.2 = ∑ j ∈ Ico r.nsMinH k, if j < r.nsMaxH - 1 ∨ j = c.ns - 2 then M j / V j ^ c.adiabaticIndex * V j else 0)
    ⟨hp.congr fun j a _ => by rw [if_neg (by omega)], by simp⟩
    (by
      intro k s a b hs
      rw [hm.get a b, hv.get a b]
      dsimp only [Outcome.bind_ok]
      obtain ⟨u, eu, hu⟩ := hs.1.set a b (M k / V k ^ c.adiabaticIndex)
      rw [eu]
      dsimp only [Outcome.bind_ok]
      have hu' : Holds1 u r.nsMinH r.nsMaxH (fun j => if j < k + 1 then M j / V j ^ c.adiabaticIndex else p0 j) :=
        hu.congr fun j _ _ => by
          by_cases e : j = k
          · subst e; rw [if_pos rfl, if_pos (by omega)]
          · rw [if_neg e]
            by_cases e2 : j < k
            · rw [if_pos e2, if_pos (by omega)]
            · rw [if_neg e2, if_neg (by omega)]
      by_cases h : k < r.nsMaxH - 1 ∨ k = c.ns - 2
      · rw [if_pos h, hu'.get a b, if_pos (by omega)]
        refine ⟨_, rfl, hu', ?_⟩
        rw [sum_Ico_int_succ a, if_pos h, hs.2]
      · rw [if_neg h]
        refine ⟨_, rfl, hu', ?_⟩
        rw [sum_Ico_int_succ a, if_neg h, hs.2, add_zero])
  rw [e]
  dsimp only [Outcome.bind_ok]
  exact ⟨s.1, by rw [hs2], hs1.congr fun j _ b => if_pos b⟩

/-- magnetic pressure of a point -/
noncomputable def magP (h : Half) : ℝ := 0.5 * (h.bsupu * h.bsubu + h.bsupv * h.bsubv)

/-- the total pressure and the magnetic energy of the half-grid points a thread counts -/
theorem magnetic_ok (hc : GoodCtx c) (hr : Good c.ns lfreeb r) (hh : Holds half r.nsMinH r.nsMaxH c.nZnT H)
    {presH : Vec ℝ} {p : Int → ℝ} (hp : Holds1 presH r.nsMinH r.nsMaxH p) :
    ∃ half', magnetic c r presH half = .ok (half', ∑ j ∈ Ico r.nsMinH r.nsMaxH,
        if j < r.nsMaxH - 1 ∨ j = c.ns - 2 then ∑ kl ∈ Ico 0 c.nZnT, (H j kl).gsqrt * magP (H j kl) * wt c kl else 0) ∧
      Holds half' r.nsMinH r.nsMaxH c.nZnT (fun j kl => { H j kl with totalPressure := magP (H j kl) + p j }) := by
  obtain ⟨w1, w2, w3⟩ := hr.window
  obtain ⟨h0, e0, hh0⟩ := magneticPressure_ok hh hc hr
  unfold magnetic
  rw [e0]
  dsimp only [Outcome.bind_ok]
  obtain ⟨s, e, hs1, hs2⟩ := forRangeM_inv (lo := r.nsMinH) (hi := r.nsMaxH) w3 (fun jH (s : Vec Half × ℝ) => do
    let e ← surfaceEnergy c r s.1 jH s.2
    let p ← presH.get (jH - r.nsMinH)
    let half ← addPressure c r p jH s.1
    .ok (half, e)) (h0, (0 : ℝ))
    (fun (k : Int) (s : Vec Half × ℝ) =>
      Holds s.1 r.nsMinH r.nsMaxH c.nZnT (fun j kl =>
        ({ H j kl with totalPressure := if j < k then magP (H j kl) + p j else magP (H j kl) } : Half)) ∧
      s.2 = ∑ j ∈ Ico r.nsMinH k, if j < r.nsMaxH - 1 ∨ j = c.ns - 2 then
        ∑ kl ∈ Ico 0 c.nZnT, (H j kl).gsqrt * magP (H j kl) * wt c kl else 0)
    ⟨hh0.congr fun j kl a _ _ _ => by rw [if_neg (by omega)]; rfl, by simp⟩
    (by
      intro k s a b hs
      obtain ⟨s1, s2⟩ := s
      obtain ⟨hs1, hs2⟩ := hs
      dsimp only at hs1 hs2 ⊢
      have en : surfaceEnergy c r s1 k s2 = .ok (s2 + if k < r.nsMaxH - 1 ∨ k = c.ns - 2 then
            ∑ kl ∈ Ico 0 c.nZnT, (H k kl).gsqrt * magP (H k kl) * wt c kl else 0) := by
        unfold surfaceEnergy
        by_cases h : k < r.nsMaxH - 1 ∨ k = c.ns - 2
        · rw [if_pos h, if_pos h]
          refine sumM (n := c.nZnT) _ (fun kl => (H k kl).gsqrt * magP (H k kl) * wt c kl) hc.points ?_ s2
          intro kl e k1 k2
          rw [hs1.get a b k1 k2, weight_ok hc k1]
          dsimp only [Outcome.bind_ok]
          rw [if_neg (by omega)]
        · rw [if_neg h, if_neg h, add_zero]
      rw [en]
      dsimp only [Outcome.bind_ok]
      rw [hp.get a b]
      dsimp only [Outcome.bind_ok]
      obtain ⟨u, eu, hu⟩ : ∃ u, addPressure c r (p k) k s1 = .ok u ∧ Holds u r.nsMinH r.nsMaxH c.nZnT
          (fun j kl => if j = k then ({ H k kl with totalPressure := magP (H k kl) + p k } : Half) else
            ({ H j kl with totalPressure := if j < k then magP (H j kl) + p j else magP (H j kl) } : Half)) := by
        unfold addPressure
        refine row_fill _ (fun kl => ({ H k kl with totalPressure := magP (H k kl) + p k } : Half)) hs1 a b ?_
        intro kl u K' k1 k2 hu hK'
        rw [hu.get a b k1 k2, hK', if_neg (by omega)]
        rfl
      rw [eu]
      refine ⟨_, rfl, hu.congr fun j kl _ _ _ _ => ?_, ?_⟩
      · by_cases e : j = k
        · subst e; rw [if_pos rfl, if_pos (by omega)]
        · rw [if_neg e]
          by_cases e2 : j < k
          · rw [if_pos e2, if_pos (by omega)]
          · rw [if_neg e2, if_neg (by omega)]
      · dsimp only
        rw [sum_Ico_int_succ a, hs2])
  rw [e]
  exact ⟨s.1, by rw [← hs2], hs1.congr fun j kl _ b _ _ => by rw [if_pos b]⟩

end Verif.Kernels
