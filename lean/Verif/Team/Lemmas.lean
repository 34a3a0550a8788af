import Verif.Team.Model
import Mathlib.Algebra.BigOperators.Group.List.Basic
import Mathlib.Tactic.Abel
import Mathlib.Algebra.BigOperators.Pi

/-!
# Rules for the routines of the force evaluation
-/
namespace Verif.Team

variable {R A : Type} [Field R] [LinearOrder R] {n : Nat}

/-- an accumulation over the threads, in whatever order, is a sum -/
theorem fold_sum {S M : Type} [AddCommMonoid M] (set : S → M → S) (get : S → M)
    (h1 : ∀ s v, get (set s v) = v) (h2 : ∀ s v w, set (set s v) w = set s w) (h3 : ∀ s, set s (get s) = s)
    (f : Fin n → M) (l : List (Fin n)) (s : S) :
    l.foldl (fun s i => set s (get s + f i)) s = set s (get s + (l.map f).sum) := by
  induction l generalizing s with
  | nil => simp [h3]
  | cons i l ih => simp only [List.foldl_cons, ih, h1, h2, List.map_cons, List.sum_cons, add_assoc]

theorem perm_sum {M : Type} [AddCommMonoid M] (f : Fin n → M) {l : List (Fin n)}
    (h : l.Perm (List.finRange n)) : (l.map f).sum = ∑ i, f i := by
  rw [(h.map f).sum_eq, Fin.sum_univ_def]

theorem add3_eq (a b : R × R × R) : add3 a b = a + b := rfl

variable {Post : Cfg n (Sh R) A → Prop} {s : Sh R} {J : Sh R → Prop} {fs : List (Sh R → Sh R)}

theorem Pend.rd {S α : Type} {Post : Cfg n S A → Prop} {s : S} {J : S → Prop} {fs : List (S → S)}
    {π : S → α} {k : Fin n → α → Prog S A} (hk : ∀ f ∈ fs, ∀ s, J s → π (f s) = π s)
    (h : Pend Post s (fun t => J t ∧ π t = π s) fs (fun i => k i (π s))) :
    Pend Post s J fs (fun i => rd π (k i)) := Pend.read (k := k) (π s) rfl hk h

/-- the state after `evalFResInvar` when the contributions add up to `t` -/
def afterInvar (t : R × R × R) (s : Sh R) : Sh R :=
  { s with
    fResInvar := t
    fsqr := t.1 * s.fNormRZ * (1 / 4)
    fsqz := t.2.1 * s.fNormRZ * (1 / 4)
    fsql := t.2.2 * s.fNormL }

theorem Pend.evalFResInvar (hn : 0 < n) {loc : Fin n → R × R × R} {K : Fin n → Prog (Sh R) A}
    (hJ : ∀ s v, J s → J { s with fResInvar := v })
    (h : Safe Post (afterInvar (∑ i, loc i) (fs.foldl (fun s f => f s) s)) K) :
    Pend Post s J fs (fun i => evalFResInvar (loc i) (K i)) := by
  unfold Team.evalFResInvar Team.singleB
  refine Pend.singleB hn (fun s hs => hJ s _ hs) (Safe.enter (Pend.act hn (fun _ _ _ => trivial) ?_))
  intro l hl
  refine Safe.enter (Pend.singleB hn (fun _ _ => trivial) ?_)
  have := fold_sum (S := Sh R) (fun s v => { s with fResInvar := v }) (fun s => s.fResInvar)
    (fun _ _ => rfl) (fun _ _ _ => rfl) (fun _ => rfl) loc l
    { (fs.foldl (fun s f => f s) s) with fResInvar := (0, 0, 0) }
  simp only [add3_eq, List.foldl_nil]
  rw [this, perm_sum loc hl]
  have e : ((0 : R), (0 : R), (0 : R)) = (0 : R × R × R) := rfl
  simp only [e, zero_add]
  exact h

/-- the state after `evalFResPrecd` -/
def afterPrecd (e : Cst R) (t : R × R × R) (s : Sh R) : Sh R :=
  { s with
    fResPrecd := t
    fsqr1 := t.1 * s.fNorm1
    fsqz1 := t.2.1 * s.fNorm1
    fsql1 := t.2.2 * e.deltaS }

theorem Pend.evalFResPrecd (hn : 0 < n) {e : Cst R} {loc : Fin n → R × R × R}
    {K : Fin n → Prog (Sh R) A} (hJ : ∀ s v, J s → J { s with fResPrecd := v })
    (h : Safe Post (afterPrecd e (∑ i, loc i) (fs.foldl (fun s f => f s) s)) K) :
    Pend Post s J fs (fun i => evalFResPrecd e (loc i) (K i)) := by
  unfold Team.evalFResPrecd Team.singleB
  refine Pend.singleB hn (fun s hs => hJ s _ hs) (Safe.enter (Pend.act hn (fun _ _ _ => trivial) ?_))
  intro l hl
  refine Safe.enter (Pend.singleB hn (fun _ _ => trivial) ?_)
  have := fold_sum (S := Sh R) (fun s v => { s with fResPrecd := v }) (fun s => s.fResPrecd)
    (fun _ _ => rfl) (fun _ _ _ => rfl) (fun _ => rfl) loc l
    { (fs.foldl (fun s f => f s) s) with fResPrecd := (0, 0, 0) }
  simp only [add3_eq, List.foldl_nil]
  rw [this, perm_sum loc hl]
  have e : ((0 : R), (0 : R), (0 : R)) = (0 : R × R × R) := rfl
  simp only [e, zero_add]
  exact h

theorem Pend.computeInitialVolume (hn : 0 < n) {loc : Fin n → R} {K : Fin n → Prog (Sh R) A}
    (hJ : ∀ s v, J s → J { s with voli := v })
    (h : Safe Post { (fs.foldl (fun s f => f s) s) with voli := ∑ i, loc i } K) :
    Pend Post s J fs (fun i => computeInitialVolume (loc i) (K i)) := by
  unfold Team.computeInitialVolume Team.singleB
  refine Pend.singleB hn (fun s hs => hJ s _ hs) (Safe.enter (Pend.barrier hn (Safe.enter
    (Pend.act hn (fun _ _ _ => trivial) ?_))))
  intro l hl
  have := fold_sum (S := Sh R) (fun s v => { s with voli := v }) (fun s => s.voli)
    (fun _ _ => rfl) (fun _ _ _ => rfl) (fun _ => rfl) loc l
    { (fs.foldl (fun s f => f s) s) with voli := 0 }
  simp only [List.foldl_nil]
  rw [this, perm_sum loc hl]
  simpa using h

theorem Pend.updateVolume (hn : 0 < n) {loc : Fin n → R} {K : Fin n → Prog (Sh R) A}
    (hJ : ∀ s v, J s → J { s with plasmaVolume := v })
    (h : Safe Post { (fs.foldl (fun s f => f s) s) with plasmaVolume := ∑ i, loc i } K) :
    Pend Post s J fs (fun i => updateVolume (loc i) (K i)) := by
  unfold Team.updateVolume Team.singleB
  refine Pend.singleB hn (fun s hs => hJ s _ hs) (Safe.enter (Pend.barrier hn (Safe.enter
    (Pend.act hn (fun _ _ _ => trivial) ?_))))
  intro l hl
  have := fold_sum (S := Sh R) (fun s v => { s with plasmaVolume := v }) (fun s => s.plasmaVolume)
    (fun _ _ => rfl) (fun _ _ _ => rfl) (fun _ => rfl) loc l
    { (fs.foldl (fun s f => f s) s) with plasmaVolume := 0 }
  simp only [List.foldl_nil]
  rw [this, perm_sum loc hl]
  simpa using h

/-- the state after `pressureAndEnergies` -/
def afterEnergies (e : Cst R) (t m : R) (s : Sh R) : Sh R :=
  { s with thermalEnergy := t, magneticEnergy := m, mhdEnergy := m + t / (e.adiabaticIndex - 1) }

theorem Pend.pressureAndEnergies (hn : 0 < n) {e : Cst R} {locT locM : Fin n → R}
    {K : Fin n → Prog (Sh R) A}
    (hJ : ∀ s v w, J s → J { s with thermalEnergy := v, magneticEnergy := w })
    (h : Safe Post (afterEnergies e (∑ i, locT i) (∑ i, locM i) (fs.foldl (fun s f => f s) s)) K) :
    Pend Post s J fs (fun i => pressureAndEnergies e (locT i) (locM i) (K i)) := by
  unfold Team.pressureAndEnergies Team.singleB
  refine Pend.singleB hn (fun s hs => hJ s _ _ hs) (Safe.enter (Pend.barrier hn (Safe.enter
    (Pend.act hn (fun _ _ _ => trivial) ?_))))
  intro l hl
  refine Safe.enter (Pend.singleB hn (fun _ _ => trivial) (Safe.enter (Pend.barrier hn ?_)))
  have := fold_sum (S := Sh R) (M := R × R)
    (fun s v => { s with thermalEnergy := v.1, magneticEnergy := v.2 })
    (fun s => (s.thermalEnergy, s.magneticEnergy))
    (fun _ _ => rfl) (fun _ _ _ => rfl) (fun _ => rfl) (fun i => (locT i, locM i)) l
    { (fs.foldl (fun s f => f s) s) with thermalEnergy := 0, magneticEnergy := 0 }
  simp only [Prod.fst_add, Prod.snd_add] at this
  simp only [List.foldl_nil]
  rw [this, perm_sum _ hl]
  simpa [afterEnergies, Prod.fst_sum, Prod.snd_sum] using h

/-- the state after `computeForceNorms` -/
def afterNorms (e : Cst R) (ed a b c : R) (s : Sh R) : Sh R :=
  { s with
    fNormRZ := 1 / (a * ed * ed)
    fNormL := 1 / (b * e.lamscale * e.lamscale)
    fNorm1 := 1 / c }

theorem Pend.computeForceNorms (hn : 0 < n) {e : Cst R} {loc : Fin n → Local R}
    {K : Fin n → Prog (Sh R) A}
    (hJ : ∀ s u v w, J s → J { s with fNormRZ := u, fNormL := v, fNorm1 := w })
    (h : Safe Post (afterNorms e (max s.magneticEnergy s.thermalEnergy / s.plasmaVolume)
      (∑ i, (loc i).normRZ) (∑ i, (loc i).normL) (∑ i, (loc i).norm1) s) K) :
    Pend Post s J [] (fun i => computeForceNorms e (loc i) (K i)) := by
  unfold Team.computeForceNorms
  refine Pend.rd (by simp) ?_
  unfold Team.singleB
  refine Pend.singleB hn (fun s hs => ⟨hJ s _ _ _ hs.1, hs.2⟩) (Safe.enter (Pend.barrier hn
    (Safe.enter (Pend.act hn (fun _ _ _ => trivial) ?_))))
  intro l hl
  refine Safe.enter (Pend.singleB hn (fun _ _ => trivial) (Safe.enter (Pend.barrier hn ?_)))
  have := fold_sum (S := Sh R) (M := R × R × R)
    (fun s v => { s with fNormRZ := v.1, fNormL := v.2.1, fNorm1 := v.2.2 })
    (fun s => (s.fNormRZ, s.fNormL, s.fNorm1))
    (fun _ _ => rfl) (fun _ _ _ => rfl) (fun _ => rfl)
    (fun i => ((loc i).normRZ, (loc i).normL, (loc i).norm1)) l
    { s with fNormRZ := 0, fNormL := 0, fNorm1 := 0 }
  simp only [Prod.fst_add, Prod.snd_add] at this
  simp only [List.foldl_nil]
  rw [this, perm_sum _ hl]
  simpa [afterNorms, Prod.fst_sum, Prod.snd_sum] using h

end Verif.Team
