import Verif.Nestor.PerformSum

/-! # Elements of the arrays after `performUpdate` -/
namespace Verif.Nestor
open Verif Fourier Finset

/-- which of the two values a mode takes: `p` for `n > 0`, `q` for `n < 0`, their sum if one of the mode numbers is zero
    (the modes with `m = 0`, `n < 0` are not used) -/
noncomputable def sel (n m : Int) (p q : ℝ) : ℝ :=
  if m = 0 ∨ n = 0 then (if n < 0 then 0 else p + q) else if 0 < n then p else q

namespace Ctx
variable (c : Ctx)

/-- one pair of arrays, one mode -/
noncomputable def pairMode (b g : Out) (fp fm : Int → ℝ) (n m : Int) (Tp Tm Sp Sm : Int → ℝ) (kl : Int) : Arr :=
  if n = 0 ∨ m = 0 then
    c.put2 b g (c.posn n m) kl (Tp (kl - c.ztMin) + Tm (kl - c.ztMin)) (Sp (kl - c.ztMin) + Sm (kl - c.ztMin)) (fp kl)
  else c.put2 b g (c.posn n m) kl (Tp (kl - c.ztMin)) (Sp (kl - c.ztMin)) (fp kl)
    + c.put2 b g (c.negn n m) kl (Tm (kl - c.ztMin)) (Sm (kl - c.ztMin)) (fm kl)

theorem addMode_eq (fl n m : Int) (Tp Tm Sp Sm : Int → ℝ) : c.addMode fl n m Tp Tm Sp Sm
    = ∑ kl ∈ Ico c.ztMin c.ztMax, (c.pairMode .bSin .gSin (c.sinp fl n m) (c.sinm fl n m) n m Tp Tm Sp Sm kl
      + if c.s.lasym then c.pairMode .bCos .gCos (c.cosp fl n m) (c.cosm fl n m) n m Tp Tm Sp Sm kl else 0) := by
  unfold addMode
  refine sum_congr rfl fun kl _ => ?_
  unfold pairMode addBoth addSin addCos
  by_cases h : n = 0 ∨ m = 0
  · simp only [if_pos h]
  · simp only [if_neg h]

theorem put2_b {b g : Out} (hbg : b ≠ g) (idx kl : Int) (T S v : ℝ) (i : Int) :
    c.put2 b g idx kl T S v b i = if i = idx then T * c.bw kl * v else 0 := by
  unfold put2 single
  show (if _ then _ else _) + (if _ then _ else _ : Arr) b i = _
  cases c.fullUpdate <;> simp [hbg]

theorem put2_g {b g : Out} (hbg : b ≠ g) (hf : c.fullUpdate = true) (idx kl : Int) (T S v : ℝ) (i : Int) :
    c.put2 b g idx kl T S v g i = if i = idx * c.numLocal + (kl - c.ztMin) then S * v else 0 := by
  unfold put2 single
  show (if _ then _ else _) + (if _ then _ else _ : Arr) g i = _
  simp [hbg.symm, hf]

theorem put2_other {b g o : Out} (hb : o ≠ b) (hg : o ≠ g) (idx kl : Int) (T S v : ℝ) (i : Int) :
    c.put2 b g idx kl T S v o i = 0 := by
  unfold put2 single
  show (if _ then _ else _) + (if _ then _ else _ : Arr) o i = _
  cases c.fullUpdate <;> simp [hb, hg]

theorem put2_nofull {b g : Out} (hbg : b ≠ g) (hf : c.fullUpdate = false) (idx kl : Int) (T S v : ℝ) (i : Int) :
    c.put2 b g idx kl T S v g i = 0 := by
  unfold put2 single
  show (if _ then _ else _) + (if _ then _ else _ : Arr) g i = _
  simp [hbg.symm, hf]

theorem idx_inj {mf a b m m' : Int} (h0 : 0 ≤ m) (h1 : m ≤ mf) (h0' : 0 ≤ m') (h1' : m' ≤ mf) :
    a * (mf + 1) + m = b * (mf + 1) + m' ↔ a = b ∧ m = m' := by
  constructor
  · intro e
    have e1 := congrArg (· / (mf + 1)) e
    have e2 := congrArg (· % (mf + 1)) e
    simp only [Int.add_comm _ m, Int.add_comm _ m', Int.add_mul_ediv_right _ _ (by omega : mf + 1 ≠ 0), Int.add_mul_emod_self_right] at e1 e2
    rw [Int.ediv_eq_zero_of_lt h0 (by omega), Int.ediv_eq_zero_of_lt h0' (by omega)] at e1
    rw [Int.emod_eq_of_lt h0 (by omega), Int.emod_eq_of_lt h0' (by omega)] at e2
    exact ⟨by omega, e2⟩
  · rintro ⟨rfl, rfl⟩; rfl

theorem posn_inj {n m n' m' : Int} (h0 : 0 ≤ m) (h1 : m ≤ c.mf) (h0' : 0 ≤ m') (h1' : m' ≤ c.mf) :
    c.posn n m = c.posn n' m' ↔ n = n' ∧ m = m' := by
  unfold posn; rw [idx_inj h0 h1 h0' h1']; omega

theorem negn_inj {n m n' m' : Int} (h0 : 0 ≤ m) (h1 : m ≤ c.mf) (h0' : 0 ≤ m') (h1' : m' ≤ c.mf) :
    c.posn n m = c.negn n' m' ↔ n = -n' ∧ m = m' := by
  unfold posn negn; rw [idx_inj h0 h1 h0' h1']; omega

/-- reading an element of the vector -/
theorem pairMode_b {b g : Out} (hbg : b ≠ g) (fp fm : Int → ℝ) (n m nn m0 : Int) (hn : 0 ≤ n) (hm : 0 ≤ m) (hm' : m ≤ c.mf)
    (h0 : 0 ≤ m0) (h0' : m0 ≤ c.mf) (Tp Tm Sp Sm : Int → ℝ) (kl : Int) :
    c.pairMode b g fp fm n m Tp Tm Sp Sm kl b (c.posn nn m0)
      = if n = |nn| ∧ m = m0 then c.bw kl * (if 0 ≤ nn then fp kl else fm kl) * sel nn m0 (Tp (kl - c.ztMin)) (Tm (kl - c.ztMin)) else 0 := by
  unfold pairMode
  have habs : n = |nn| ↔ (n = nn ∨ n = -nn) := by
    rcases abs_cases nn with ⟨h, h'⟩ | ⟨h, h'⟩ <;> rw [h] <;> omega
  by_cases h : n = 0 ∨ m = 0
  · rw [if_pos h, put2_b c hbg]
    simp only [posn_inj c h0 h0' hm hm', habs]
    by_cases e : nn = n ∧ m0 = m
    · obtain ⟨rfl, rfl⟩ := e
      rw [if_pos ⟨rfl, rfl⟩, if_pos ⟨Or.inl rfl, rfl⟩, if_pos hn]
      unfold sel
      rw [if_pos (by tauto), if_neg (by omega)]; ring
    · rw [if_neg e]
      by_cases e' : (n = nn ∨ n = -nn) ∧ m = m0
      · rw [if_pos e']
        have : m0 = 0 ∧ nn < 0 := by omega
        unfold sel
        rw [if_pos (Or.inl this.1), if_pos this.2, mul_zero]
      · rw [if_neg e']
  · rw [if_neg h]
    show c.put2 _ _ _ _ _ _ _ _ _ + c.put2 _ _ _ _ _ _ _ _ _ = _
    rw [put2_b c hbg, put2_b c hbg]
    simp only [posn_inj c h0 h0' hm hm', negn_inj c h0 h0' hm hm', habs]
    push Not at h
    unfold sel
    by_cases e : m0 = m
    · subst e
      rcases lt_trichotomy nn 0 with hn0 | hn0 | hn0
      · rw [if_neg (by omega)]
        by_cases e2 : nn = -n
        · rw [if_pos ⟨e2, rfl⟩, if_pos ⟨by omega, rfl⟩, if_neg (by omega), if_neg (by omega), if_neg (by omega)]; ring
        · rw [if_neg (by omega), if_neg (by omega)]; ring
      · rw [if_neg (by omega), if_neg (by omega), if_neg (by omega)]; ring
      · by_cases e2 : nn = n
        · rw [if_pos ⟨e2, rfl⟩, if_neg (by omega), if_pos ⟨by omega, rfl⟩, if_pos (by omega), if_neg (by omega), if_pos (by omega)]; ring
        · rw [if_neg (by omega), if_neg (by omega), if_neg (by omega)]; ring
    · rw [if_neg (by omega), if_neg (by omega), if_neg (by omega)]; ring

theorem local_inj {N a b i j : Int} (h0 : 0 ≤ i) (h1 : i < N) (h0' : 0 ≤ j) (h1' : j < N) :
    a * N + i = b * N + j ↔ a = b ∧ i = j := by
  have := @idx_inj (N - 1) a b i j h0 (by omega) h0' (by omega)
  rwa [sub_add_cancel] at this

/-- reading an element of the matrix -/
theorem pairMode_g {b g : Out} (hbg : b ≠ g) (hf : c.fullUpdate = true) (fp fm : Int → ℝ) (n m nn m0 : Int) (hn : 0 ≤ n) (hm : 0 ≤ m)
    (hm' : m ≤ c.mf) (h0 : 0 ≤ m0) (h0' : m0 ≤ c.mf) (Tp Tm Sp Sm : Int → ℝ) (kl q : Int) (hk : c.ztMin ≤ kl) (hk' : kl < c.ztMax)
    (hq : c.ztMin ≤ q) (hq' : q < c.ztMax) :
    c.pairMode b g fp fm n m Tp Tm Sp Sm kl g (c.posn nn m0 * c.numLocal + (q - c.ztMin))
      = if kl = q then (if n = |nn| ∧ m = m0 then (if 0 ≤ nn then fp kl else fm kl) * sel nn m0 (Sp (kl - c.ztMin)) (Sm (kl - c.ztMin)) else 0)
        else 0 := by
  have hloc : ∀ a b : Int, (a * c.numLocal + (q - c.ztMin) = b * c.numLocal + (kl - c.ztMin)) ↔ (a = b ∧ kl = q) := by
    intro a b
    unfold numLocal
    rw [local_inj (by omega) (by omega) (by omega) (by omega)]; omega
  unfold pairMode
  have habs : n = |nn| ↔ (n = nn ∨ n = -nn) := by
    rcases abs_cases nn with ⟨h, h'⟩ | ⟨h, h'⟩ <;> rw [h] <;> omega
  by_cases hkq : kl = q
  swap
  · rw [if_neg hkq]
    by_cases h : n = 0 ∨ m = 0
    · rw [if_pos h, put2_g c hbg hf]
      simp only [hloc]
      rw [if_neg (by tauto)]
    · rw [if_neg h]
      show c.put2 _ _ _ _ _ _ _ _ _ + c.put2 _ _ _ _ _ _ _ _ _ = _
      rw [put2_g c hbg hf, put2_g c hbg hf]
      simp only [hloc]
      rw [if_neg (by tauto), if_neg (by tauto), add_zero]
  rw [if_pos hkq]
  by_cases h : n = 0 ∨ m = 0
  · rw [if_pos h, put2_g c hbg hf]
    simp only [hloc, posn_inj c h0 h0' hm hm', habs]
    by_cases e : nn = n ∧ m0 = m
    · obtain ⟨rfl, rfl⟩ := e
      rw [if_pos ⟨⟨rfl, rfl⟩, hkq⟩, if_pos ⟨Or.inl rfl, rfl⟩, if_pos hn]
      unfold sel
      rw [if_pos (by tauto), if_neg (by omega)]; ring
    · rw [if_neg (by tauto)]
      by_cases e' : (n = nn ∨ n = -nn) ∧ m = m0
      · rw [if_pos e']
        have : m0 = 0 ∧ nn < 0 := by omega
        unfold sel
        rw [if_pos (Or.inl this.1), if_pos this.2, mul_zero]
      · rw [if_neg e']
  · rw [if_neg h]
    show c.put2 _ _ _ _ _ _ _ _ _ + c.put2 _ _ _ _ _ _ _ _ _ = _
    rw [put2_g c hbg hf, put2_g c hbg hf]
    simp only [hloc, posn_inj c h0 h0' hm hm', negn_inj c h0 h0' hm hm', habs]
    push Not at h
    unfold sel
    by_cases e : m0 = m
    · subst e
      rcases lt_trichotomy nn 0 with hn0 | hn0 | hn0
      · rw [if_neg (by omega)]
        by_cases e2 : nn = -n
        · rw [if_pos ⟨⟨e2, rfl⟩, hkq⟩, if_pos ⟨by omega, rfl⟩, if_neg (by omega), if_neg (by omega), if_neg (by omega)]; ring
        · rw [if_neg (by omega), if_neg (by omega)]; ring
      · rw [if_neg (by omega), if_neg (by omega), if_neg (by omega)]; ring
      · by_cases e2 : nn = n
        · rw [if_pos ⟨⟨e2, rfl⟩, hkq⟩, if_neg (by omega), if_pos ⟨by omega, rfl⟩, if_pos (by omega), if_neg (by omega), if_pos (by omega)]; ring
        · rw [if_neg (by omega), if_neg (by omega), if_neg (by omega)]; ring
    · rw [if_neg (by omega), if_neg (by omega), if_neg (by omega)]; ring

theorem pairMode_other {b g o : Out} (hb : o ≠ b) (hg : o ≠ g) (fp fm : Int → ℝ) (n m : Int) (Tp Tm Sp Sm : Int → ℝ) (kl i : Int) :
    c.pairMode b g fp fm n m Tp Tm Sp Sm kl o i = 0 := by
  unfold pairMode
  split
  · rw [put2_other c hb hg]
  · show c.put2 _ _ _ _ _ _ _ _ _ + c.put2 _ _ _ _ _ _ _ _ _ = _
    rw [put2_other c hb hg, put2_other c hb hg, add_zero]

theorem pairMode_nofull {b g : Out} (hbg : b ≠ g) (hf : c.fullUpdate = false) (fp fm : Int → ℝ) (n m : Int) (Tp Tm Sp Sm : Int → ℝ) (kl i : Int) :
    c.pairMode b g fp fm n m Tp Tm Sp Sm kl g i = 0 := by
  unfold pairMode
  split
  · rw [put2_nofull c hbg hf]
  · show c.put2 _ _ _ _ _ _ _ _ _ + c.put2 _ _ _ _ _ _ _ _ _ = _
    rw [put2_nofull c hbg hf, put2_nofull c hbg hf, add_zero]

/-! ## the loop over `fl` -/

/-- `Tl1p` of pass `fl` -/
noncomputable def prev (T : Int → ℝ) (fl : Int) : ℝ := if fl = 0 then 0 else T (fl - 1)
noncomputable def Sp (fl i : Int) : ℝ := slp (c.pt i).k fl ((-1) ^ fl.toNat) ((c.pt i).Tlp fl) (prev (c.pt i).Tlp fl)
noncomputable def Sm (fl i : Int) : ℝ := slm (c.pt i).k fl ((-1) ^ fl.toNat) ((c.pt i).Tlm fl) (prev (c.pt i).Tlm fl)

theorem addMode_congr (fl n m : Int) (Tp Tm Sp Sm Sp' Sm' : Int → ℝ) (h : ∀ i, 0 ≤ i → i < c.numLocal → Sp i = Sp' i ∧ Sm i = Sm' i) :
    c.addMode fl n m Tp Tm Sp Sm = c.addMode fl n m Tp Tm Sp' Sm' := by
  rw [addMode_eq, addMode_eq]
  refine sum_congr rfl fun kl hk => ?_
  rw [mem_Ico] at hk
  obtain ⟨h1, h2⟩ := h (kl - c.ztMin) (by omega) (by unfold numLocal; omega)
  unfold pairMode
  rw [h1, h2]

theorem performUpdate_eq (hz : 0 < c.s.nZeta) (h0 : 0 ≤ c.ztMin) (hnf : 0 ≤ c.nf) (hmf : 0 ≤ c.mf) (old : Arr) :
    c.performUpdate old = c.clear old + ∑ fl ∈ Ico 0 (1 + c.nf + c.mf), ∑ n ∈ Ico 0 (c.nf + 1), ∑ m ∈ Ico 0 (c.mf + 1),
      c.addMode fl n m (fun i => (c.pt i).Tlp fl) (fun i => (c.pt i).Tlm fl) (c.Sp fl) (c.Sm fl) := by
  unfold performUpdate
  have := forRange_inv (lo := 0) (hi := 1 + c.nf + c.mf) (by omega) c.pass
    { a := c.clear old, Tl1p := fun _ => 0, Tl1m := fun _ => 0, sgn := 1 }
    (fun fl st => (st.a = c.clear old + ∑ f ∈ Ico 0 fl, ∑ n ∈ Ico 0 (c.nf + 1), ∑ m ∈ Ico 0 (c.mf + 1),
      c.addMode f n m (fun i => (c.pt i).Tlp f) (fun i => (c.pt i).Tlm f) (c.Sp f) (c.Sm f)) ∧
      (∀ i, 0 ≤ i → i < c.numLocal → st.Tl1p i = prev (c.pt i).Tlp fl ∧ st.Tl1m i = prev (c.pt i).Tlm fl) ∧ st.sgn = (-1) ^ fl.toNat)
    (by refine ⟨by simp, fun i _ _ => ?_, by simp⟩; simp [prev]) (by
      intro fl st g1 g2 ⟨ih1, ih2, ih3⟩
      refine ⟨?_, ?_, ?_⟩
      · unfold pass
        simp only []
        rw [forRange_measure (M := Arr) (lo := 0) (hi := c.nf + 1) _ (fun a => a)
          (fun n => ∑ m ∈ Ico 0 (c.mf + 1), c.addMode fl n m (fun i => (c.pt i).Tlp fl) (fun i => (c.pt i).Tlm fl) (c.Sp fl) (c.Sm fl)),
          ih1, sum_Ico_int_succ g1, add_assoc]
        intro n b _ _
        rw [forRange_measure (M := Arr) (lo := 0) (hi := c.mf + 1) _ (fun a => a)]
        intro m b _ _
        rw [c.mode_eq hz h0]
        refine congrArg (b + ·) (c.addMode_congr _ _ _ _ _ _ _ _ _ fun i hi hi' => ?_)
        obtain ⟨e1, e2⟩ := ih2 i hi hi'
        unfold Sp Sm
        rw [e1, e2, ih3]
        exact ⟨rfl, rfl⟩
      · intro i hi hi'
        unfold pass prev
        simp only [if_pos (And.intro hi hi'), if_neg (by omega : ¬ fl + 1 = 0), add_sub_cancel_right]
        exact ⟨trivial, trivial⟩
      · unfold pass
        simp only []
        rw [ih3, show (fl + 1).toNat = fl.toNat + 1 by omega, pow_succ]; ring)
  exact this.1

end Ctx
end Verif.Nestor
