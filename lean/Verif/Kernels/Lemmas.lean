import Verif.Kernels.Model
import Verif.Multigrid.Lemmas
import Verif.Common.Fam
import Mathlib.Tactic.Linarith
import Mathlib.Tactic.Ring

/-!
# Arrays of a thread as windows on global data, and the loops that fill them
-/
namespace Verif.Kernels
open Verif Verif.Partition Finset

/-- `v` holds the values `G j kl` of the surfaces `lo ≤ j < hi`, `n` points each -/
def Holds {α : Type} (v : Vec α) (lo hi n : Int) (G : Int → Int → α) : Prop :=
  v.size = (hi - lo) * n ∧
    ∀ j kl, lo ≤ j → j < hi → 0 ≤ kl → kl < n → v.val ((j - lo) * n + kl) = G j kl

/-- `v` holds one value per surface -/
def Holds1 {α : Type} (v : Vec α) (lo hi : Int) (G : Int → α) : Prop :=
  v.size = hi - lo ∧ ∀ j, lo ≤ j → j < hi → v.val (j - lo) = G j

theorem idx_bound {j lo hi n kl : Int} (h0 : lo ≤ j) (h1 : j < hi) (h2 : 0 ≤ kl) (h3 : kl < n) :
    0 ≤ (j - lo) * n + kl ∧ (j - lo) * n + kl < (hi - lo) * n := by
  constructor
  · have : 0 ≤ (j - lo) * n := mul_nonneg (by omega) (by omega)
    omega
  · nlinarith [mul_le_mul_of_nonneg_right (show j - lo + 1 ≤ hi - lo by omega) (show 0 ≤ n by omega)]

variable {α : Type} {v : Vec α} {lo hi n : Int} {G : Int → Int → α}

theorem Holds.get (h : Holds v lo hi n G) {j kl : Int} (h0 : lo ≤ j) (h1 : j < hi) (h2 : 0 ≤ kl) (h3 : kl < n) :
    v.get ((j - lo) * n + kl) = .ok (G j kl) := by
  have := idx_bound (n := n) h0 h1 h2 h3
  rw [Vec.get_ok _ _ this.1 (by rw [h.1]; exact this.2), h.2 j kl h0 h1 h2 h3]

theorem Holds.set (h : Holds v lo hi n G) {j kl : Int} (h0 : lo ≤ j) (h1 : j < hi) (h2 : 0 ≤ kl) (h3 : kl < n) (a : α) :
    ∃ w, v.set ((j - lo) * n + kl) a = .ok w ∧
      Holds w lo hi n (fun j' kl' => if j' = j ∧ kl' = kl then a else G j' kl') := by
  have hb := idx_bound (n := n) h0 h1 h2 h3
  refine ⟨_, Vec.set_ok _ _ _ hb.1 (by rw [h.1]; exact hb.2), h.1, fun j' kl' a0 a1 a2 a3 => ?_⟩
  by_cases e : j' = j ∧ kl' = kl
  · obtain ⟨rfl, rfl⟩ := e; simp
  · beta_reduce
    rw [if_neg e]
    refine (upd_ne _ _ ?_).trans (h.2 j' kl' a0 a1 a2 a3)
    intro e'
    obtain ⟨k1, k2⟩ := flat_inj a2 a3 h2 h3 e'
    exact e ⟨by omega, k2⟩

theorem Holds.congr {G' : Int → Int → α} (h : Holds v lo hi n G)
    (e : ∀ j kl, lo ≤ j → j < hi → 0 ≤ kl → kl < n → G j kl = G' j kl) : Holds v lo hi n G' :=
  ⟨h.1, fun j kl a b c d => (h.2 j kl a b c d).trans (e j kl a b c d)⟩

theorem Holds1.get {G : Int → α} (h : Holds1 v lo hi G) {j : Int} (h0 : lo ≤ j) (h1 : j < hi) :
    v.get (j - lo) = .ok (G j) := by
  rw [Vec.get_ok _ _ (by omega) (by rw [h.1]; omega), h.2 j h0 h1]

theorem Holds1.set {G : Int → α} (h : Holds1 v lo hi G) {j : Int} (h0 : lo ≤ j) (h1 : j < hi) (a : α) :
    ∃ w, v.set (j - lo) a = .ok w ∧ Holds1 w lo hi (fun j' => if j' = j then a else G j') := by
  refine ⟨_, Vec.set_ok _ _ _ (by omega) (by rw [h.1]; omega), h.1, fun j' a0 a1 => ?_⟩
  by_cases e : j' = j
  · subst e; simp
  · beta_reduce
    rw [if_neg e]
    exact (upd_ne _ _ (by omega)).trans (h.2 j' a0 a1)

theorem Holds1.congr {G G' : Int → α} (h : Holds1 v lo hi G) (e : ∀ j, lo ≤ j → j < hi → G j = G' j) :
    Holds1 v lo hi G' :=
  ⟨h.1, fun j a b => (h.2 j a b).trans (e j a b)⟩

theorem forRangeM_empty {S : Type} {lo hi : Int} (h : hi ≤ lo) (f : Int → S → Outcome S) (s : S) :
    forRangeM lo hi f s = .ok s := by simp [forRangeM, irange_empty h]

/-- a loop over the points of one surface that replaces every entry of it -/
theorem row_fill (f : Int → Vec α → Outcome (Vec α)) (g : Int → α) (hv : Holds v lo hi n G) {j : Int}
    (h0 : lo ≤ j) (h1 : j < hi)
    (hf : ∀ kl w H, 0 ≤ kl → kl < n → Holds w lo hi n H → H j kl = G j kl →
      f kl w = w.set ((j - lo) * n + kl) (g kl)) :
    ∃ w, forRangeM 0 n f v = .ok w ∧ Holds w lo hi n (fun j' kl => if j' = j then g kl else G j' kl) := by
  by_cases hn : 0 ≤ n
  · obtain ⟨w, e, hw⟩ := forRangeM_inv (lo := 0) (hi := n) hn f v
      (fun (k : Int) (w : Vec α) => Holds w lo hi n (fun j' kl => if j' = j ∧ kl < k then g kl else G j' kl))
      (hv.congr fun j' kl _ _ a _ => by rw [if_neg (by omega)])
      (by
        intro k w a b hw
        obtain ⟨w', e', hw'⟩ := hw.set h0 h1 a b (g k)
        refine ⟨w', (hf k w _ a b hw (by simp)).trans e', hw'.congr fun j' kl _ _ _ _ => ?_⟩
        by_cases e1 : j' = j
        · subst e1
          by_cases e2 : kl = k
          · subst e2; simp
          · simp only [e2, and_false, if_false, true_and]
            rcases lt_or_ge kl k with h | h
            · rw [if_pos h, if_pos (by omega)]
            · rw [if_neg (by omega), if_neg (by omega)]
        · simp [e1])
    exact ⟨w, e, hw.congr fun j' kl _ _ _ h => by by_cases e : j' = j <;> simp [e, h]⟩
  · rw [forRangeM_empty (by omega)]
    exact ⟨v, rfl, hv.congr fun j' kl _ _ a b => by omega⟩

/-- a loop over surfaces, each of which replaces the entries of its own surface -/
theorem rows_fill {a b : Int} (F : Int → Vec α → Outcome (Vec α)) (G' : Int → Int → α) (hv : Holds v lo hi n G)
    (hF : ∀ j w H, a ≤ j → j < b → Holds w lo hi n H → (∀ kl, 0 ≤ kl → kl < n → H j kl = G j kl) →
      ∃ w', F j w = .ok w' ∧ Holds w' lo hi n (fun j' kl => if j' = j then G' j kl else H j' kl)) :
    ∃ w, forRangeM a b F v = .ok w ∧
      Holds w lo hi n (fun j kl => if a ≤ j ∧ j < b then G' j kl else G j kl) := by
  by_cases hab : a ≤ b
  · exact forRangeM_inv (lo := a) (hi := b) hab F v
      (fun (k : Int) (w : Vec α) => Holds w lo hi n (fun j kl => if a ≤ j ∧ j < k then G' j kl else G j kl))
      (hv.congr fun j kl _ _ _ _ => by rw [if_neg (by omega)])
      (by
        intro k w h1 h2 hw
        obtain ⟨w', e, hw'⟩ := hF k w _ h1 h2 hw (fun kl _ _ => by rw [if_neg (by omega)])
        refine ⟨w', e, hw'.congr fun j kl _ _ _ _ => ?_⟩
        by_cases e1 : j = k
        · subst e1; rw [if_pos rfl, if_pos (by omega)]
        · rw [if_neg e1]
          by_cases e2 : a ≤ j ∧ j < k
          · rw [if_pos e2, if_pos (by omega)]
          · rw [if_neg e2, if_neg (by omega)])
  · rw [forRangeM_empty (by omega)]
    exact ⟨v, rfl, hv.congr fun j kl _ _ _ _ => by rw [if_neg (by omega)]⟩

/-- a loop over surfaces that replaces one value per surface -/
theorem fill1 {a b : Int} {G : Int → α} (f : Int → Vec α → Outcome (Vec α)) (G' : Int → α) (hv : Holds1 v lo hi G)
    (ha : lo ≤ a) (hb : b ≤ hi)
    (hf : ∀ j w H, a ≤ j → j < b → Holds1 w lo hi H → H j = G j →
      ∃ w', f j w = .ok w' ∧ Holds1 w' lo hi (fun j' => if j' = j then G' j else H j')) :
    ∃ w, forRangeM a b f v = .ok w ∧ Holds1 w lo hi (fun j => if a ≤ j ∧ j < b then G' j else G j) := by
  by_cases hab : a ≤ b
  · exact forRangeM_inv (lo := a) (hi := b) hab f v
      (fun (k : Int) (w : Vec α) => Holds1 w lo hi (fun j => if a ≤ j ∧ j < k then G' j else G j))
      (hv.congr fun j _ _ => by rw [if_neg (by omega)])
      (by
        intro k w h1 h2 hw
        obtain ⟨w', e, hw'⟩ := hf k w _ h1 h2 hw (by rw [if_neg (by omega)])
        refine ⟨w', e, hw'.congr fun j _ _ => ?_⟩
        by_cases e1 : j = k
        · subst e1; rw [if_pos rfl, if_pos (by omega)]
        · rw [if_neg e1]
          by_cases e2 : a ≤ j ∧ j < k
          · rw [if_pos e2, if_pos (by omega)]
          · rw [if_neg e2, if_neg (by omega)])
  · rw [forRangeM_empty (by omega)]
    exact ⟨v, rfl, hv.congr fun j _ _ => by rw [if_neg (by omega)]⟩

/-- an accumulation loop -/
theorem sumM {S : Type} [AddCommMonoid S] (f : Int → S → Outcome S) (t : Int → S) (hn : 0 ≤ n)
    (hf : ∀ k s, 0 ≤ k → k < n → f k s = .ok (s + t k)) (s : S) :
    forRangeM 0 n f s = .ok (s + ∑ k ∈ Ico 0 n, t k) := by
  obtain ⟨w, e, hw⟩ := forRangeM_inv (lo := 0) (hi := n) hn f s
    (fun (k : Int) (w : S) => w = s + ∑ i ∈ Ico 0 k, t i) (by simp)
    (by
      intro k w h1 h2 hw
      refine ⟨_, hf k w h1 h2, ?_⟩
      rw [hw, sum_Ico_int_succ h1, add_assoc])
  rw [e, hw]

/-! ## the ranges of a thread -/

/-- the ranges of a thread of a team as the solver sets it up -/
structure Good (ns : Int) (lfreeb : Bool) (r : Ranges) : Prop where
  ns3 : 3 ≤ ns
  minF : 0 ≤ r.nsMinF
  maxF : r.nsMinF + 2 ≤ r.nsMaxF
  maxF_le : r.nsMaxF ≤ numSurfacesToDistribute ns lfreeb
  minF1 : r.nsMinF1 = max 0 (r.nsMinF - 1)
  maxF1 : r.nsMaxF1 = min ns (r.nsMaxF + 1)
  minH : r.nsMinH = r.nsMinF1
  maxH : r.nsMaxH = r.nsMaxF1 - 1
  minFi : r.nsMinFi = max 1 r.nsMinF
  maxFi : r.nsMaxFi = min (ns - 1) r.nsMaxF
  lcfs : r.nsMaxFIncludingLcfs = if r.nsMaxF1 = ns then ns else r.nsMaxF
  min2 : r.nsMinF = 0 ∨ 2 ≤ r.nsMinF

theorem good_of_team {nt ns : Int} {lfreeb : Bool} {R : Int → Ranges} (h : Multigrid.GoodTeam nt ns lfreeb R) {t : Int}
    (ht : isThread nt t) : Good ns lfreeb (R t) := by
  obtain ⟨a1, a2, a3, a4, a5, a6, a7, a8⟩ := Multigrid.team_shape h ht
  obtain ⟨h1, h2, h3, hT⟩ := h
  obtain ⟨f0, f1, f2, f3, f4, f5, f6, f7, f8, f9⟩ := team_facts (by omega) h1 hT ht
  have hn : 0 ≤ numSurfacesToDistribute ns lfreeb := by omega
  refine ⟨h2, a1, a2, ?_, a4, a5, f5, f6, f7, f8, a6, ?_⟩
  · rw [f2]; exact split_le hn (by omega) ht.2
  · by_cases e : t = 0
    · exact Or.inl (a7 e)
    · exact Or.inr (a8 e)

theorem Good.dist {ns : Int} {lfreeb : Bool} {r : Ranges} (h : Good ns lfreeb r) :
    numSurfacesToDistribute ns lfreeb = ns ∨ numSurfacesToDistribute ns lfreeb = ns - 1 := by
  unfold numSurfacesToDistribute; split <;> simp

/-- sizes and weights as `Sizes` sets them up -/
structure GoodCtx (c : Ctx) : Prop where
  theta : 0 < c.nThetaEff
  points : 0 ≤ c.nZnT
  wInt : c.wInt.size = c.nThetaEff

/-- the weight of a point -/
def wt (c : Ctx) (kl : Int) : ℝ := c.wInt.val (kl % c.nThetaEff)

theorem weight_ok {c : Ctx} (hc : GoodCtx c) {kl : Int} (h : 0 ≤ kl) : weight c kl = .ok (wt c kl) := by
  unfold weight wt
  rw [Int.tmod_eq_emod_of_nonneg h]
  exact Vec.get_ok _ _ (Int.emod_nonneg _ hc.theta.ne') (by rw [hc.wInt]; exact Int.emod_lt_of_pos _ hc.theta)

end Verif.Kernels
