import Verif.AxisGuess.Lemmas

namespace Verif.AxisGuess
open Verif

variable (a : In)

/-- sizes as the constructor of `Sizes` makes them (property C07) -/
structure In.Good : Prop where
  nZeta : 1 ≤ a.s.nZeta
  even : a.s.nThetaEven = 2 * (a.s.nThetaReduced - 1)
  theta : 3 ≤ a.s.nThetaReduced

theorem put_assigns {I : Geo → Prop} {V : G × Int × Int → ℝ → Prop} {k l : Int} (v : Geo → G → ℝ)
    (hk : 0 ≤ k ∧ k < a.s.nZeta) (hl : 0 ≤ l ∧ l < a.s.nThetaEven)
    (hV : ∀ w g, I w → V (g, k, l) (v w g))
    (hI : ∀ w w', I w → (∀ x, ¬ (x.2.1 = k ∧ x.2.2 = l) → w' x = w x) → I w') :
    Assigns I (fun x => x.2.1 = k ∧ x.2.2 = l) V (fun w => a.put w k l (v w)) := by
  intro w hw
  refine ⟨fun x => if x.2.1 = k ∧ x.2.2 = l then v w x.1 else w x, ?_, ?_, ?_, ?_⟩
  · exact if_pos ⟨hk, hl⟩
  · exact hI w _ hw (fun x hx => if_neg hx)
  · rintro ⟨g, k', l'⟩ ⟨e1, e2⟩
    dsimp only at e1 e2
    subst e1 e2
    beta_reduce
    rw [if_pos ⟨rfl, rfl⟩]
    exact hV w g hw
  · intro x hx
    exact if_neg hx

theorem synthesis_spec (h : a.Good) : ∃ w, a.synthesis = .ok w ∧
    (∀ g k l, (0 ≤ k ∧ k < a.s.nZeta) → (0 ≤ l ∧ l < a.s.nThetaReduced) → w (g, k, l) = a.point g k l) ∧
    (∀ g k l, ¬ (0 ≤ l ∧ l < a.s.nThetaReduced) → w (g, k, l) = 0) := by
  have h1 := h.even
  have h2 := h.theta
  have main := Assigns.loop (lo := 0) (hi := a.s.nZeta) (I := fun _ : Geo => True)
    (V := fun x v => v = a.point x.1 x.2.1 x.2.2)
    (P := fun k x => ∃ l, (0 ≤ l ∧ l < a.s.nThetaReduced) ∧ x.2.1 = k ∧ x.2.2 = l)
    (f := fun k w => forRangeM 0 a.s.nThetaReduced (fun l w => a.put w k l (fun g => a.point g k l)) w)
    (fun k hk hk' => Assigns.loop (fun l hl hl' => put_assigns a (fun _ g => a.point g k l) ⟨hk, hk'⟩
      ⟨hl, by omega⟩ (fun _ _ _ => rfl) (fun _ _ _ _ => trivial)))
  obtain ⟨w, e, -, e3, e4⟩ := main (fun _ => 0) trivial
  refine ⟨w, e, fun g k l hk hl => e3 (g, k, l) ⟨k, hk, l, hl, rfl, rfl⟩, fun g k l hl => ?_⟩
  refine e4 (g, k, l) ?_
  rintro ⟨k', -, l', hl', -, e⟩
  dsimp only at e
  subst e
  exact hl hl'

/-- the mirrored plane -/
theorem rev_eq {n k : Int} (hk : 0 ≤ k ∧ k < n) :
    (n - k).tmod n = if k = 0 then 0 else n - k := by
  rw [Int.tmod_eq_emod_of_nonneg (by omega)]
  split
  · rename_i e; subst e; simp
  · exact Int.emod_eq_of_lt (by omega) (by omega)

theorem mirror_spec (h : a.Good) (hs : a.s.lasym = false) (w : Geo) : ∃ w', a.mirror w = .ok w' ∧
    (∀ g k l, l < a.s.nThetaReduced → w' (g, k, l) = w (g, k, l)) ∧
    (∀ g k l, (0 ≤ k ∧ k < a.s.nZeta) → (a.s.nThetaReduced ≤ l ∧ l < a.s.nThetaEven) →
      w' (g, k, l) = g.mirrorSign * w (g, (if k = 0 then 0 else a.s.nZeta - k), a.s.nThetaEven - l)) := by
  have h1 := h.even
  have h2 := h.theta
  unfold In.mirror
  simp only [hs, if_false, Bool.false_eq_true]
  have main := Assigns.loop (lo := 0) (hi := a.s.nZeta)
    (I := fun w' : Geo => ∀ g k l, l < a.s.nThetaReduced → w' (g, k, l) = w (g, k, l))
    (V := fun x v => v = x.1.mirrorSign *
      w (x.1, (if x.2.1 = 0 then 0 else a.s.nZeta - x.2.1), a.s.nThetaEven - x.2.2))
    (P := fun k x => ∃ l, (1 ≤ l ∧ l < a.s.nThetaReduced - 1) ∧
      x.2.1 = (a.s.nZeta - k).tmod a.s.nZeta ∧ x.2.2 = (a.s.nThetaEven - l).tmod a.s.nThetaEven)
    (f := fun k w => forRangeM 1 (a.s.nThetaReduced - 1) (fun l w =>
      a.put w ((a.s.nZeta - k).tmod a.s.nZeta) ((a.s.nThetaEven - l).tmod a.s.nThetaEven)
        (fun g => g.mirrorSign * w (g, k, l))) w)
    (fun k hk hk' => Assigns.loop (fun l hl hl' => by
      have ek := rev_eq (n := a.s.nZeta) (k := k) ⟨hk, hk'⟩
      have el := rev_eq (n := a.s.nThetaEven) (k := l) ⟨by omega, by omega⟩
      rw [if_neg (by omega)] at el
      refine put_assigns a (fun w g => g.mirrorSign * w (g, k, l)) ?_ ?_ ?_ ?_
      · rw [ek]; split <;> omega
      · rw [el]; omega
      · intro w' g hw'
        dsimp only
        rw [hw' g k l (by omega), ek, el]
        have e1 : (if (if k = 0 then 0 else a.s.nZeta - k) = 0 then 0
            else a.s.nZeta - (if k = 0 then 0 else a.s.nZeta - k)) = k := by
          by_cases hk0 : k = 0
          · simp [hk0]
          · rw [if_neg hk0, if_neg (by omega)]; ring
        rw [e1, show a.s.nThetaEven - (a.s.nThetaEven - l) = l by ring]
      · intro w' w'' hw' hsame g k' l' hl'
        rw [hsame (g, k', l') (by rw [el]; dsimp only; omega)]
        exact hw' g k' l' hl'))
  obtain ⟨w', e, e2, e3, e4⟩ := main w (fun _ _ _ _ => rfl)
  refine ⟨w', e, e2, fun g k l hk hl => ?_⟩
  have := e3 (g, k, l) ⟨(if k = 0 then 0 else a.s.nZeta - k), ⟨by split <;> omega, by split <;> omega⟩,
    a.s.nThetaEven - l, ⟨by omega, by omega⟩, ?_, ?_⟩
  · exact this
  · dsimp only
    rw [rev_eq ⟨by split <;> omega, by split <;> omega⟩]
    by_cases hk0 : k = 0
    · simp [hk0]
    · rw [if_neg hk0, if_neg (by omega)]; ring
  · dsimp only
    rw [rev_eq ⟨by omega, by omega⟩, if_neg (by omega)]; ring

theorem mainLoop_spec (h : a.Good) (f : Int → ℝ × ℝ) :
    a.mainLoop f = .ok (fun k => if 0 ≤ k ∧ k ≤ a.s.nZeta / 2 then f k else (0, 0)) := by
  have h1 := h.nZeta
  unfold In.mainLoop
  rw [Int.tdiv_eq_ediv_of_nonneg (by omega)]
  obtain ⟨p, e, hp⟩ := forRangeM_inv (lo := 0) (hi := a.s.nZeta / 2 + 1) (by omega)
    (fun k p => a.putPos p k (f k)) (fun _ => (0, 0))
    (fun (j : Int) (p : Pos) => p = fun k => if 0 ≤ k ∧ k < j then f k else (0, 0))
    (by funext k; rw [if_neg (by omega)]) (by
      intro j p hj hj' hp
      refine ⟨_, by unfold In.putPos; rw [if_pos ⟨by omega, by omega⟩], ?_⟩
      funext k
      unfold upd
      rw [hp]
      beta_reduce
      by_cases e : k = j
      · subst e; rw [if_pos rfl, if_pos (by omega)]
      · rw [if_neg e]
        by_cases e' : 0 ≤ k ∧ k < j
        · rw [if_pos e', if_pos (by omega)]
        · rw [if_neg e', if_neg (by omega)])
  rw [e, hp]
  congr 1
  funext k
  by_cases e' : 0 ≤ k ∧ k ≤ a.s.nZeta / 2
  · rw [if_pos e', if_pos (by omega)]
  · rw [if_neg e', if_neg (by omega)]

theorem mirrorPos_spec (h : a.Good) (hs : a.s.lasym = false) (p : Pos) :
    a.mirrorPos p = .ok (fun k => if a.s.nZeta - a.s.nZeta / 2 < k ∧ k < a.s.nZeta
      then ((p (a.s.nZeta - k)).1, -(p (a.s.nZeta - k)).2) else p k) := by
  have h1 := h.nZeta
  unfold In.mirrorPos
  simp only [hs, if_false, Bool.false_eq_true]
  rw [Int.tdiv_eq_ediv_of_nonneg (by omega)]
  by_cases hn : a.s.nZeta = 1
  · rw [hn]
    have : forRangeM 1 (1 / 2 : Int) (fun k p => a.putPos p ((1 - k).tmod 1) ((p k).1, -(p k).2)) p = .ok p := rfl
    rw [this]
    congr 1
    funext k
    rw [if_neg (by omega)]
  obtain ⟨p', e, hp⟩ := forRangeM_inv (lo := 1) (hi := a.s.nZeta / 2) (by omega)
    (fun k p => a.putPos p ((a.s.nZeta - k).tmod a.s.nZeta) ((p k).1, -(p k).2)) p
    (fun (j : Int) (p' : Pos) => p' = fun k => if a.s.nZeta - j < k ∧ k < a.s.nZeta
      then ((p (a.s.nZeta - k)).1, -(p (a.s.nZeta - k)).2) else p k)
    (by funext k; rw [if_neg (by omega)]) (by
      intro j p' hj hj' hp
      have ej := rev_eq (n := a.s.nZeta) (k := j) ⟨by omega, by omega⟩
      rw [if_neg (by omega)] at ej
      refine ⟨_, by unfold In.putPos; rw [if_pos (by rw [ej]; omega)], ?_⟩
      rw [ej]
      funext k
      unfold upd
      rw [hp]
      beta_reduce
      by_cases e : k = a.s.nZeta - j
      · subst e
        rw [if_pos rfl, if_neg (by omega), if_pos (by omega), show a.s.nZeta - (a.s.nZeta - j) = j by ring]
      · rw [if_neg e]
        by_cases e' : a.s.nZeta - j < k ∧ k < a.s.nZeta
        · rw [if_pos e', if_pos (by omega)]
        · rw [if_neg e', if_neg (by omega)])
  rw [e, hp]

end Verif.AxisGuess
