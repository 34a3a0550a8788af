import Verif.Indata.Spec
import Verif.Common.Lawful
import Mathlib.Tactic.NormNum
import Mathlib.Tactic.Linarith

/-!
# C23: the validation of an input
-/
namespace Verif.Indata
open Verif

/-! ## Helper lemmas -/

theorem bind_ok_iff {α β : Type} (x : Outcome α) (f : α → Outcome β) (b : β) : (x >>= f) = .ok b ↔ ∃ a, x = .ok a ∧ f a = .ok b := by
  cases x <;> simp

theorem seq_ok_iff {β : Type} (x : Outcome Unit) (f : Unit → Outcome β) (b : β) : (x >>= f) = .ok b ↔ x = .ok () ∧ f () = .ok b := by
  rw [bind_ok_iff]
  constructor
  · rintro ⟨⟨⟩, h1, h2⟩; exact ⟨h1, h2⟩
  · rintro ⟨h1, h2⟩; exact ⟨(), h1, h2⟩

theorem exists_unit {p : Unit → Prop} : (∃ a, p a) ↔ p () := ⟨fun ⟨⟨⟩, h⟩ => h, fun h => ⟨(), h⟩⟩

theorem reject_ok_iff (c : Bool) (w : String) : reject c w = .ok () ↔ c = false := by
  unfold reject; cases c <;> simp

theorem reject_defined (c : Bool) (w : String) : (reject c w).Defined := by
  unfold reject; cases c <;> simp [Outcome.Defined]

theorem defined_bind {α β : Type} {x : Outcome α} {f : α → Outcome β} (h : x.Defined) (hf : ∀ a, x = .ok a → (f a).Defined) : (x >>= f).Defined := by
  cases x with
  | ok a => exact hf a rfl
  | status m => intro w; simp
  | abort m => intro w; simp
  | throws m => intro w; simp
  | ub m => exact absurd rfl (h m)

theorem Returns.ok {α : Type} (a : α) : Returns (Outcome.ok a) := Or.inl ⟨a, rfl⟩

theorem Returns.status {α : Type} (m : String) : Returns (Outcome.status m : Outcome α) := Or.inr ⟨m, rfl⟩

theorem Returns.bind {α β : Type} {x : Outcome α} {f : α → Outcome β} (h : Returns x) (hf : ∀ a, x = .ok a → Returns (f a)) : Returns (x >>= f) := by
  rcases h with ⟨a, rfl⟩ | ⟨m, rfl⟩
  · exact hf a rfl
  · exact .status m

theorem returns_reject (c : Bool) (w : String) : Returns (reject c w) := by
  unfold reject; cases c
  · exact .ok _
  · exact .status _

theorem deq_iff (x : D) (q : ℚ) : deq x (.fin q) = true ↔ x = .fin q := by
  cases x <;> simp [deq]

theorem deq_false_iff (x : D) (q : ℚ) : deq x (.fin q) = false ↔ x ≠ .fin q := by
  rw [← not_iff_not, Bool.not_eq_false, deq_iff, not_not]

theorem notNeg_iff (x : D) : D.lt x (.fin 0) = false ↔ NotNeg x := by
  cases x <;> simp [D.lt, NotNeg]

theorem nanOrIn_iff (lo hi : ℚ) (x : D) : (D.le x (.fin lo) || D.lt (.fin hi) x) = false ↔ NanOrIn lo hi x := by
  cases x <;> simp [D.lt, D.le, NanOrIn]

theorem at'_ok_iff {α : Type} (v : List α) (i : Nat) (a : α) : at' v i = .ok a ↔ v[i]? = some a := by
  unfold at'; cases v[i]? <;> simp

theorem at'_defined {α : Type} (v : List α) (i : Nat) : (at' v i).Defined ↔ i < v.length := by
  unfold at' Outcome.Defined
  by_cases h : i < v.length
  · simp [h]
  · simp [List.getElem?_eq_none (Nat.le_of_not_lt h), h]

theorem deref_ok_iff {α : Type} (o : Option α) (a : α) : deref o = .ok a ↔ o = some a := by
  unfold deref; cases o <;> simp

theorem deref_defined {α : Type} (o : Option α) : (deref o).Defined ↔ o.isSome := by
  unfold deref Outcome.Defined; cases o <;> simp

theorem checkNs_ok_iff (g : Int) (l : List Int) : checkNs g l = .ok () ↔ (∀ n ∈ l, 3 ≤ n ∧ g ≤ n) ∧ l.Pairwise (· ≤ ·) := by
  induction l generalizing g with
  | nil => simp [checkNs]
  | cons a l ih =>
    unfold checkNs
    by_cases h3 : a ≥ 3
    · rw [if_pos h3]
      by_cases hg : a < g
      · rw [if_pos hg]
        simp only [reduceCtorEq, false_iff]
        rintro ⟨h, -⟩
        have := (h a (by simp)).2
        omega
      · rw [if_neg hg, ih]
        have e : (if a > g then a else g) = a := by split <;> omega
        rw [e, List.pairwise_cons]
        constructor
        · rintro ⟨h1, h2⟩
          refine ⟨fun n hn => ?_, fun n hn => (h1 n hn).2, h2⟩
          rcases List.mem_cons.1 hn with rfl | hn
          · omega
          · have := h1 n hn; omega
        · rintro ⟨h1, h2, h4⟩
          exact ⟨fun n hn => ⟨(h1 n (by simp [hn])).1, h2 n hn⟩, h4⟩
    · rw [if_neg h3]
      simp only [reduceCtorEq, false_iff]
      rintro ⟨h, -⟩
      have := (h a (by simp)).1
      omega

theorem checkNs_returns (g : Int) (l : List Int) : Returns (checkNs g l) := by
  induction l generalizing g with
  | nil => exact .ok _
  | cons a l ih =>
    unfold checkNs
    split
    · split
      · exact .status _
      · exact ih _
    · exact .status _

theorem checkEntries_ok_iff {α : Type} (bad : α → Bool) (w : String) (v : List α) (i n : Nat) :
    checkEntries bad w v i n = .ok () ↔ ∀ k, k < n → ∃ x, v[i + k]? = some x ∧ bad x = false := by
  induction n generalizing i with
  | zero => simp [checkEntries]
  | succ n ih =>
    unfold checkEntries
    rw [bind_ok_iff]
    simp only [at'_ok_iff, seq_ok_iff, reject_ok_iff, ih]
    constructor
    · rintro ⟨x, h1, h2, h3⟩ k hk
      rcases Nat.eq_zero_or_pos k with rfl | hp
      · exact ⟨x, h1, h2⟩
      · obtain ⟨y, e1, e2⟩ := h3 (k - 1) (by omega)
        rw [show i + 1 + (k - 1) = i + k by omega] at e1
        exact ⟨y, e1, e2⟩
    · intro h
      obtain ⟨x, h1, h2⟩ := h 0 (by omega)
      refine ⟨x, h1, h2, fun k hk => ?_⟩
      obtain ⟨y, e1, e2⟩ := h (k + 1) (by omega)
      rw [show i + (k + 1) = i + 1 + k by omega] at e1
      exact ⟨y, e1, e2⟩

theorem checkEntries_returns {α : Type} (bad : α → Bool) (w : String) (v : List α) (i n : Nat) (h : i + n ≤ v.length) :
    Returns (checkEntries bad w v i n) := by
  induction n generalizing i with
  | zero => exact .ok _
  | succ n ih =>
    unfold checkEntries
    refine Returns.bind ?_ fun x _ => (returns_reject _ _).bind fun _ _ => ih _ (by omega)
    unfold at'
    rw [List.getElem?_eq_getElem (by omega)]
    exact .ok _

theorem checkShape_ok_iff (d : Indata) (w : String) (a : Mat D) : checkShape d w a = .ok () ↔ Shape d.mpol (2 * d.ntor + 1) a := by
  unfold checkShape Shape
  simp only [seq_ok_iff, reject_ok_iff, decide_eq_false_iff_not, ne_eq, not_not]

theorem checkShape_returns (d : Indata) (w : String) (a : Mat D) : Returns (checkShape d w a) :=
  (returns_reject _ _).bind fun _ _ => returns_reject _ _

theorem returns_deref {α : Type} {o : Option α} (h : o.isSome) : Returns (deref o) := by
  cases o with
  | none => simp at h
  | some a => exact .ok a

/-! ## The property -/

/-- **C23**: the validation returns OK exactly for the inputs that meet the documented constraints (NaN passes where `Documented`
says so). -/
theorem C23_ok_iff (d : Indata) (b : Bool) : isConsistent d b = .ok () ↔ Documented d := by
  have hR : checkResolution d = .ok () ↔ 0 < d.nfp ∧ 2 ≤ d.mpol ∧ 0 ≤ d.ntor ∧ 0 ≤ d.ntheta ∧ 0 ≤ d.nzeta := by
    unfold checkResolution
    simp only [seq_ok_iff, reject_ok_iff, decide_eq_false_iff_not, not_le, not_lt]
  have hG : checkGrids d = .ok () ↔ (d.ns_array ≠ [] ∧ (∀ n ∈ d.ns_array, 3 ≤ n) ∧ d.ns_array.Pairwise (· ≤ ·)) ∧
      (∀ i, i < d.ns_array.length → ∃ x, d.ftol_array[i]? = some x ∧ NotNeg x) ∧
      (∀ i, i < d.ns_array.length → ∃ n, d.niter_array[i]? = some n ∧ 0 < n) := by
    unfold checkGrids
    rw [seq_ok_iff, seq_ok_iff, checkEntries_ok_iff, checkEntries_ok_iff]
    refine and_congr ?_ (and_congr ?_ ?_)
    · unfold checkNsArray
      by_cases hl : d.ns_array = []
      · simp [hl]
      · rw [if_pos (List.length_pos_iff.2 hl), checkNs_ok_iff]
        constructor
        · rintro ⟨h1, h2⟩
          exact ⟨hl, fun n hn => (h1 n hn).1, h2⟩
        · rintro ⟨-, h1, h2⟩
          exact ⟨fun n hn => ⟨h1 n hn, by have := h1 n hn; omega⟩, h2⟩
    · simp only [Nat.zero_add, notNeg_iff]
    · simp only [Nat.zero_add, decide_eq_false_iff_not, not_le]
  have hP : checkPhysics d = .ok () ↔ d.phiedge ≠ .fin 0 ∧ (d.ncurr = 0 ∨ d.ncurr = 1) ∧ NotNeg d.pres_scale ∧ d.gamma ≠ .fin 1 ∧
      NanOrIn 0 1 d.spres_ped ∧ (d.ncurr = 0 → d.bloat = .fin 1) := by
    unfold checkPhysics
    simp only [seq_ok_iff, reject_ok_iff, notNeg_iff, deq_false_iff, nanOrIn_iff]
    refine and_congr Iff.rfl (and_congr ?_ (and_congr Iff.rfl (and_congr Iff.rfl (and_congr Iff.rfl ?_))))
    · rw [decide_eq_false_iff_not]; omega
    · rw [decide_eq_false_iff_not, not_and]
      refine imp_congr_right fun _ => ?_
      rw [← deq_iff]
      cases deq d.bloat (.fin 1) <;> simp
  have hC : checkControl d = .ok () ↔ (d.lfreeb = true → 1 ≤ d.nvacskip) ∧ (d.lfreeb = true → d.free_boundary_method ≠ .BIEST) ∧ 0 < d.nstep ∧
      NanOrIn 0 10 d.delt ∧ (d.tcon0 = .nan ∨ ∃ q : ℚ, d.tcon0 = .fin q ∧ 0 ≤ q ∧ q ≤ 1) := by
    unfold checkControl
    simp only [seq_ok_iff, reject_ok_iff, nanOrIn_iff]
    refine and_congr ?_ (and_congr ?_ (and_congr ?_ (and_congr Iff.rfl ?_)))
    · rw [decide_eq_false_iff_not, not_and, not_lt]
    · rw [decide_eq_false_iff_not, not_and]
      refine imp_congr_right fun _ => ?_
      cases d.free_boundary_method <;> simp
    · rw [decide_eq_false_iff_not, not_le]
    · have e : decide (d.iteration_style ≠ .VMEC_8_52 ∧ d.iteration_style ≠ .PARVMEC) = false := by cases d.iteration_style <;> rfl
      rw [e]
      cases d.tcon0 <;> simp [D.lt]
  have hA : checkAxis d = .ok () ↔ ((d.raxis_c.length : Int) = d.ntor + 1) ∧ ((d.zaxis_s.length : Int) = d.ntor + 1) ∧
      (d.lasym = false → d.raxis_s = none ∧ d.zaxis_c = none) ∧ (d.lasym = true →
        (∃ v, d.raxis_s = some v ∧ (v.length : Int) = d.ntor + 1) ∧ (∃ v, d.zaxis_c = some v ∧ (v.length : Int) = d.ntor + 1)) := by
    unfold checkAxis
    simp only [seq_ok_iff, reject_ok_iff, decide_eq_false_iff_not, ne_eq, not_not]
    refine and_congr Iff.rfl (and_congr Iff.rfl ?_)
    cases hl : d.lasym
    · simp [seq_ok_iff, reject_ok_iff]
    · rw [if_pos rfl]
      simp only [bind_ok_iff, exists_unit, deref_ok_iff, reject_ok_iff, decide_eq_false_iff_not, ne_eq, not_not]
      constructor
      · rintro ⟨v, h1, h2, w, h3, h4⟩
        exact ⟨fun q => by simp at q, fun _ => ⟨⟨v, h1, h2⟩, ⟨w, h3, h4⟩⟩⟩
      · rintro ⟨-, h⟩
        obtain ⟨⟨v, h1, h2⟩, ⟨w, h3, h4⟩⟩ := h (by trivial)
        exact ⟨v, h1, h2, w, h3, h4⟩
  have hB : checkBoundary d = .ok () ↔ Shape d.mpol (2 * d.ntor + 1) d.rbc ∧ Shape d.mpol (2 * d.ntor + 1) d.zbs ∧
      (d.lasym = false → d.rbs = none ∧ d.zbc = none) ∧ (d.lasym = true →
        (∃ a, d.rbs = some a ∧ Shape d.mpol (2 * d.ntor + 1) a) ∧ (∃ a, d.zbc = some a ∧ Shape d.mpol (2 * d.ntor + 1) a)) := by
    unfold checkBoundary
    simp only [seq_ok_iff, checkShape_ok_iff]
    refine and_congr Iff.rfl (and_congr Iff.rfl ?_)
    cases hl : d.lasym
    · simp [seq_ok_iff, reject_ok_iff]
    · rw [if_pos rfl]
      simp only [bind_ok_iff, exists_unit, deref_ok_iff, checkShape_ok_iff]
      constructor
      · rintro ⟨v, h1, h2, w, h3, h4⟩
        exact ⟨fun q => by simp at q, fun _ => ⟨⟨v, h1, h2⟩, ⟨w, h3, h4⟩⟩⟩
      · rintro ⟨-, h⟩
        obtain ⟨⟨v, h1, h2⟩, ⟨w, h3, h4⟩⟩ := h (by trivial)
        exact ⟨v, h1, h2, w, h3, h4⟩
  unfold isConsistent
  rw [seq_ok_iff, seq_ok_iff, seq_ok_iff, seq_ok_iff, seq_ok_iff, seq_ok_iff, hR, hG, hP, hC, hA, hB]
  constructor
  · rintro ⟨⟨a1, a2, a3, a4, a5⟩, ⟨⟨b1, b2, b3⟩, b4, b5⟩, ⟨c1, c2, c3, c4, c5, c6⟩, ⟨e1, e2, e3, e4, e5⟩, ⟨f1, f2, f3, f4⟩, ⟨g1, g2, g3, g4⟩, -⟩
    exact ⟨a1, a2, a3, a4, a5, b1, b2, b3, b4, b5, c1, c2, c3, c4, c5, c6, e1, e2, e3, e4, e5, f1, f2, g1, g2,
      fun h => ⟨(f3 h).1, (f3 h).2, (g3 h).1, (g3 h).2⟩, fun h => ⟨(f4 h).1, (f4 h).2, (g4 h).1, (g4 h).2⟩⟩
  · intro h
    refine ⟨⟨h.nfp, h.mpol, h.ntor, h.ntheta, h.nzeta⟩, ⟨⟨h.grids, h.surfaces, h.monotone⟩, h.ftol, h.niter⟩,
      ⟨h.phiedge, h.ncurr, h.pres_scale, h.gamma, h.spres_ped, h.bloat⟩, ⟨h.nvacskip, h.method, h.nstep, h.delt, h.tcon0⟩,
      ⟨h.raxis_c, h.zaxis_s, fun q => ⟨(h.sym q).1, (h.sym q).2.1⟩, fun q => ⟨(h.asym q).1, (h.asym q).2.1⟩⟩,
      ⟨h.rbc, h.zbs, fun q => (h.sym q).2.2, fun q => (h.asym q).2.2⟩, ?_⟩
    have hn := h.ntor
    have hm := h.mpol
    unfold infoMessages
    cases b
    · rfl
    · rw [if_pos rfl]
      have l1 := h.zaxis_s
      have e1 : ∃ x, at' d.zaxis_s 0 = .ok x := by
        refine ⟨d.zaxis_s[0]'(by omega), ?_⟩
        rw [at'_ok_iff, List.getElem?_eq_getElem]
      obtain ⟨x, e1⟩ := e1
      have e2 : d.zbs.get 0 d.ntor = .ok (d.zbs.val 0 d.ntor) := Mat.get_ok _ _ _ (by rw [h.zbs.1, h.zbs.2]; omega)
      rw [e1, Outcome.bind_ok, e2, Outcome.bind_ok]
      cases hl : d.lasym
      · rfl
      · obtain ⟨⟨v, v1, v2⟩, -, ⟨a, a1, a2⟩, -⟩ := h.asym hl
        have e3 : ∃ x, at' v 0 = .ok x := by
          refine ⟨v[0]'(by omega), ?_⟩
          rw [at'_ok_iff, List.getElem?_eq_getElem]
        obtain ⟨y, e3⟩ := e3
        have e4 : a.get 0 d.ntor = .ok (a.val 0 d.ntor) := Mat.get_ok _ _ _ (by rw [a2.1, a2.2]; omega)
        rw [if_pos rfl, v1, a1]
        show (Outcome.ok v >>= _) = _
        rw [Outcome.bind_ok, e3, Outcome.bind_ok]
        show (Outcome.ok a >>= _) = _
        rw [Outcome.bind_ok, e4]
        rfl

/-- **C23** (partial): the validation returns OK or an error status whenever the arrays it reads exist.  Missing: inputs whose tolerance or
iteration arrays are shorter than `ns_array` and asymmetric inputs without their arrays, for which the claim is false. -/
theorem C23_returns_partial (d : Indata) (b : Bool) (h : Readable d) : Returns (isConsistent d b) := by
  by_cases hok : isConsistent d b = .ok ()
  · rw [hok]; exact .ok _
  unfold isConsistent at hok ⊢
  refine Returns.bind ?_ fun _ h1 => Returns.bind ?_ fun _ h2 => Returns.bind ?_ fun _ h3 => Returns.bind ?_ fun _ h4 =>
    Returns.bind ?_ fun _ h5 => Returns.bind ?_ fun _ h6 => ?_
  · unfold checkResolution
    exact Returns.bind (returns_reject _ _) fun _ _ => Returns.bind (returns_reject _ _) fun _ _ => Returns.bind (returns_reject _ _) fun _ _ =>
      Returns.bind (returns_reject _ _) fun _ _ => returns_reject _ _
  · unfold checkGrids
    have l1 := h.ftol
    have l2 := h.niter
    refine Returns.bind ?_ fun _ _ => Returns.bind ?_ fun _ _ => ?_
    rotate_left
    · exact checkEntries_returns _ _ _ _ _ (by omega)
    · exact checkEntries_returns _ _ _ _ _ (by omega)
    unfold checkNsArray
    split
    · exact checkNs_returns _ _
    · exact .status _
  · unfold checkPhysics
    exact Returns.bind (returns_reject _ _) fun _ _ => Returns.bind (returns_reject _ _) fun _ _ => Returns.bind (returns_reject _ _) fun _ _ =>
      Returns.bind (returns_reject _ _) fun _ _ => Returns.bind (returns_reject _ _) fun _ _ => returns_reject _ _
  · unfold checkControl
    exact Returns.bind (returns_reject _ _) fun _ _ => Returns.bind (returns_reject _ _) fun _ _ => Returns.bind (returns_reject _ _) fun _ _ =>
      Returns.bind (returns_reject _ _) fun _ _ => Returns.bind (returns_reject _ _) fun _ _ => returns_reject _ _
  · unfold checkAxis
    refine Returns.bind (returns_reject _ _) fun _ _ => Returns.bind (returns_reject _ _) fun _ _ => ?_
    cases hl : d.lasym
    · exact Returns.bind (returns_reject _ _) fun _ _ => returns_reject _ _
    · obtain ⟨q1, q2, -, -⟩ := h.asym hl
      exact Returns.bind (returns_deref q1) fun _ _ => Returns.bind (returns_reject _ _) fun _ _ =>
        Returns.bind (returns_deref q2) fun _ _ => returns_reject _ _
  · unfold checkBoundary
    refine Returns.bind (checkShape_returns _ _ _) fun _ _ => Returns.bind (checkShape_returns _ _ _) fun _ _ => ?_
    cases hl : d.lasym
    · exact Returns.bind (returns_reject _ _) fun _ _ => returns_reject _ _
    · obtain ⟨-, -, q1, q2⟩ := h.asym hl
      exact Returns.bind (returns_deref q1) fun _ _ => Returns.bind (checkShape_returns _ _ _) fun _ _ =>
        Returns.bind (returns_deref q2) fun _ _ => checkShape_returns _ _ _
  · -- all checks passed, so the messages read existing entries
    have hall : isConsistent d false = .ok () := by
      unfold isConsistent
      rw [h1, Outcome.bind_ok, h2, Outcome.bind_ok, h3, Outcome.bind_ok, h4, Outcome.bind_ok, h5, Outcome.bind_ok, h6, Outcome.bind_ok]
      rfl
    have := (C23_ok_iff d b).2 ((C23_ok_iff d false).1 hall)
    unfold isConsistent at this
    exact absurd this hok

/-- **C23** (partial): in particular it has defined behaviour -/
theorem C23_defined_partial (d : Indata) (b : Bool) (h : Readable d) : (isConsistent d b).Defined := by
  rcases C23_returns_partial d b h with ⟨_, e⟩ | ⟨_, e⟩ <;> rw [e] <;> simp [Outcome.Defined]

/-- the default input is accepted -/
example : isConsistent init true = .ok () := by decide +kernel

/-- a three-dimensional free-boundary input with two grids is accepted, the same input with decreasing grids is not -/
example :
    let d : Indata := { init with
      nfp := 5, mpol := 3, ntor := 1, ns_array := [5, 11], ftol_array := [.fin (1 / 100), .fin (1 / 10 ^ 8)], niter_array := [50, 100], lfreeb := true,
      ncurr := 1, bloat := .fin 2, raxis_c := [.fin 1, .fin 0], zaxis_s := [.fin 0, .fin 0], rbc := ⟨3, 3, fun _ _ => .fin 1⟩, zbs := ⟨3, 3, fun _ _ => .fin 1⟩ }
    isConsistent d true = .ok () ∧ isConsistent { d with ns_array := [11, 5] } true = .status "ns_array" := by decide +kernel

/-- the undefined behaviour that is left: an asymmetric input without `raxis_s` ... -/
theorem C23_missing_axis_ub : ∃ d : Indata, (d.lasym = true ∧ d.raxis_s = none) ∧ ∃ w, isConsistent d false = .ub w :=
  ⟨{ init with lasym := true }, by decide +kernel, "empty optional dereferenced", by decide +kernel⟩

/-- ... and fewer tolerances than grids -/
theorem C23_short_tolerances_ub : ∃ d : Indata, d.ftol_array.length < d.ns_array.length ∧ ∃ w, isConsistent d false = .ub w :=
  ⟨{ init with ns_array := [5, 11] }, by decide +kernel, "vector index out of bounds", by decide +kernel⟩

/-- the documented intervals do not hold for NaN, which is accepted -/
theorem C23_nan_accepted : ∃ d : Indata, isConsistent d false = .ok () ∧ ¬ (D.lt (.fin 0) d.spres_ped = true ∧ D.le d.spres_ped (.fin 1) = true) ∧
    ¬ D.le (.fin 0) d.pres_scale = true ∧ (∃ x ∈ d.ftol_array, ¬ D.le (.fin 0) x = true) :=
  ⟨{ init with spres_ped := .nan, pres_scale := .nan, ftol_array := [.nan], delt := .nan, tcon0 := .nan }, by decide +kernel, by decide +kernel, by decide +kernel,
    .nan, by decide +kernel, by decide +kernel⟩

/-- more tolerances than grids are accepted: the lengths are not compared -/
theorem C23_lengths_not_compared : ∃ d : Indata, isConsistent d false = .ok () ∧ d.ftol_array.length ≠ d.ns_array.length ∧
    d.niter_array.length ≠ d.ns_array.length ∧ d.am_aux_s.length ≠ d.am_aux_f.length :=
  ⟨{ init with ftol_array := [.fin 1, .fin 1], niter_array := [1, 2], am_aux_s := [.fin 0] }, by decide +kernel, by decide +kernel, by decide +kernel, by decide +kernel⟩

end Verif.Indata
