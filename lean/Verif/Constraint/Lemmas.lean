import Verif.Constraint.Model
import Verif.Constraint.Spec
import Verif.Asym.Props
import Verif.Transform.PropsC

/-!
# What `deAliasConstraintForce` computes
-/
namespace Verif.Constraint
open Verif Verif.Fourier Partition Finset Transform

variable {c : Ctx}

theorem dot_eq (n : Int) (a b : Int → ℝ) : dot n a b = ∑ i ∈ Ico 0 n, a i * b i := by
  unfold dot
  rw [forRange_add, zero_add]

/-- what plane `k` adds to a coefficient -/
noncomputable def aVal (c : Ctx) (tc : ℝ) (g : Int → ℝ) (jF m k : Int) (f : Four) (n : Int) : ℝ :=
  let S := fun p : Int → ℝ => ∑ l ∈ Ico 0 c.s.nThetaReduced, g (idxKl c c.r.nsMinF jF k + l) * p l
  let R := fun p : Int → ℝ => ∑ l ∈ Ico 0 c.s.nThetaReduced, g (idxKl c c.r.nsMinF jF (Asym.kRev c k) + lRev c l) * p l
  let s := fun l => (polAt c m l).sinmui
  let o := fun l => (polAt c m l).cosmui
  if c.s.lasym = false then
    match f with
    | .gsc => (torAt c k n).cosnv * S s * tc
    | .gcs => (torAt c k n).sinnv * S o * tc
    | _ => 0
  else
    match f with
    | .gcs => 0.5 * tc * (torAt c k n).sinnv * (S o - R o)
    | .gsc => 0.5 * tc * (torAt c k n).cosnv * (S s - R s)
    | .gss => 0.5 * tc * (torAt c k n).sinnv * (S s + R s)
    | .gcc => 0.5 * tc * (torAt c k n).cosnv * (S o + R o)

theorem sum_pick {lo hi i : Int} (h : lo ≤ i ∧ i < hi) (v : Int → ℝ) : (∑ n ∈ Ico lo hi, if i = n then v n else 0) = v i := by
  rw [Finset.sum_ite_eq, if_pos (Finset.mem_Ico.2 h)]

theorem analyse_eq (tc : ℝ) (g : Int → ℝ) (jF m k : Int) (a : Four → Int → ℝ) (f : Four) {n : Int} (hn : 0 ≤ n ∧ n < c.s.ntor + 1) :
    analyse c tc g jF m k a f n = a f n + aVal c tc g jF m k f n := by
  unfold analyse
  simp only [dot_eq]
  by_cases h : c.s.lasym = false
  · rw [if_pos h, forRange_addAll _ (fun n' f i => if i = n' then aVal c tc g jF m k f n' else 0), sum_pick hn]
    intro j s f i _ _
    unfold aVal
    simp only [addTo_apply, h]
    cases f <;> simp [idxKl]
  · rw [if_neg h, forRange_addAll _ (fun n' f i => if i = n' then aVal c tc g jF m k f n' else 0), sum_pick hn]
    intro j s f i _ _
    unfold aVal
    simp only [addTo_apply, h]
    cases f <;> simp [idxKl]

/-- a coefficient of mode `m` -/
noncomputable def aSum (c : Ctx) (tc : ℝ) (g : Int → ℝ) (jF m : Int) (f : Four) (n : Int) : ℝ :=
  ∑ k ∈ Ico 0 c.s.nZeta, aVal c tc g jF m k f n

theorem analyse_loop (tc : ℝ) (g : Int → ℝ) (jF m : Int) (a : Four → Int → ℝ) (f : Four) {n : Int} (hn : 0 ≤ n ∧ n < c.s.ntor + 1) :
    forRange 0 c.s.nZeta (fun k a => analyse c tc g jF m k a) a f n = a f n + aSum c tc g jF m f n := by
  unfold aSum
  rw [← forRange_add]
  exact forRange_apply (fun k a => analyse c tc g jF m k a) f n (fun k v => v + aVal c tc g jF m k f n)
    (fun k s => analyse_eq tc g jF m k s f hn) a

/-- what mode `m` adds to a point -/
noncomputable def sVal (c : Ctx) (faccon : Int → ℝ) (m k l : Int) (a : Four → Int → ℝ) : Out → ℝ
  | .gCon => faccon m * ((∑ n ∈ Ico 0 (c.s.ntor + 1), a .gsc n * (torAt c k n).cosnv) * (polAt c m l).sinmu +
      (∑ n ∈ Ico 0 (c.s.ntor + 1), a .gcs n * (torAt c k n).sinnv) * (polAt c m l).cosmu)
  | .gcona => if c.s.lasym then faccon m * ((∑ n ∈ Ico 0 (c.s.ntor + 1), a .gcc n * (torAt c k n).cosnv) * (polAt c m l).cosmu +
      (∑ n ∈ Ico 0 (c.s.ntor + 1), a .gss n * (torAt c k n).sinnv) * (polAt c m l).sinmu) else 0

/-- position of a point in the two arrays -/
def pos (c : Ctx) (jF k l : Int) : Out → Int
  | .gCon => idxKl c c.r.nsMinF jF k + l
  | .gcona => k * c.s.nThetaEff + l

theorem synthesise_eq (faccon : Int → ℝ) (jF m k : Int) (a : Four → Int → ℝ) (o : Out → Int → ℝ) (q : Out) (i : Int) :
    synthesise c faccon jF m k a o q i = o q i + ∑ l ∈ Ico 0 c.s.nThetaReduced, if i = pos c jF k l q then sVal c faccon m k l a q else 0 := by
  unfold synthesise
  simp only [dot_eq]
  rw [forRange_addAll _ (fun l q i => if i = pos c jF k l q then sVal c faccon m k l a q else 0) (by
    intro l s q i _ _
    unfold sVal pos idxKl
    split
    · rename_i h
      simp only [addTo_apply]
      cases q <;> simp [h]
    · rename_i h
      simp only [addTo_apply]
      cases q <;> simp [h])]

theorem sVal_congr (faccon : Int → ℝ) (m k l : Int) {a b : Four → Int → ℝ} (q : Out)
    (h : ∀ f n, 0 ≤ n → n < c.s.ntor + 1 → (c.s.lasym = false → f = .gsc ∨ f = .gcs) → a f n = b f n) :
    sVal c faccon m k l a q = sVal c faccon m k l b q := by
  have e : ∀ f (t : Int → ℝ), (c.s.lasym = false → f = .gsc ∨ f = .gcs) →
      ∑ n ∈ Ico 0 (c.s.ntor + 1), a f n * t n = ∑ n ∈ Ico 0 (c.s.ntor + 1), b f n * t n := fun f t hf =>
    Finset.sum_congr rfl fun n hn => by
      rw [Finset.mem_Ico] at hn
      rw [h f n hn.1 hn.2 hf]
  unfold sVal
  cases q
  · dsimp only
    rw [e .gsc _ (fun _ => Or.inl rfl), e .gcs _ (fun _ => Or.inr rfl)]
  · dsimp only
    split
    · rename_i hl
      rw [e .gcc _ (by simp [hl]), e .gss _ (by simp [hl])]
    · rfl

theorem modeStep_eq (faccon : Int → ℝ) (tc : ℝ) (g : Int → ℝ) (jF m : Int) (st : (Four → Int → ℝ) × (Out → Int → ℝ)) (q : Out) (i : Int) :
    (modeStep c faccon tc g jF m st).2 q i = st.2 q i + ∑ k ∈ Ico 0 c.s.nZeta, ∑ l ∈ Ico 0 c.s.nThetaReduced,
      if i = pos c jF k l q then sVal c faccon m k l (aSum c tc g jF m) q else 0 := by
  unfold modeStep
  dsimp only
  rw [forRange_addAll _ (fun k q i => ∑ l ∈ Ico 0 c.s.nThetaReduced, if i = pos c jF k l q then sVal c faccon m k l (aSum c tc g jF m) q else 0) (by
    intro k s q i _ _
    rw [synthesise_eq]
    congr 1
    refine Finset.sum_congr rfl fun l _ => ?_
    split
    · refine sVal_congr faccon m k l q fun f n n0 n1 hf => ?_
      rw [analyse_loop tc g jF m _ f ⟨n0, n1⟩]
      have : (if 0 ≤ n ∧ n < c.s.ntor + 1 then (0:ℝ) else st.1 f n) = 0 := if_pos ⟨n0, n1⟩
      cases f <;> dsimp only <;> unfold fillFirst
      · rw [this, zero_add]
      · rw [this, zero_add]
      · have hl : c.s.lasym = true := by
          by_contra hh
          rcases hf (by simpa using hh) with h | h <;> exact absurd h (by decide)
        rw [if_pos hl, this, zero_add]
      · have hl : c.s.lasym = true := by
          by_contra hh
          rcases hf (by simpa using hh) with h | h <;> exact absurd h (by decide)
        rw [if_pos hl, this, zero_add]
    · rfl)]

/-- what all modes together add to a point -/
noncomputable def pVal (c : Ctx) (faccon : Int → ℝ) (tc : ℝ) (g : Int → ℝ) (jF k l : Int) (q : Out) : ℝ :=
  ∑ m ∈ Ico 1 (c.s.mpol - 1), sVal c faccon m k l (aSum c tc g jF m) q

theorem modes_eq (faccon : Int → ℝ) (tc : ℝ) (g : Int → ℝ) (jF : Int) (st : (Four → Int → ℝ) × (Out → Int → ℝ)) (q : Out) (i : Int) :
    (forRange 1 (c.s.mpol - 1) (fun m st => modeStep c faccon tc g jF m st) st).2 q i = st.2 q i +
      ∑ k ∈ Ico 0 c.s.nZeta, ∑ l ∈ Ico 0 c.s.nThetaReduced, if i = pos c jF k l q then pVal c faccon tc g jF k l q else 0 := by
  have e := forRange_map (lo := 1) (hi := c.s.mpol - 1) (fun m st => modeStep c faccon tc g jF m st)
    (fun m v => v + ∑ k ∈ Ico 0 c.s.nZeta, ∑ l ∈ Ico 0 c.s.nThetaReduced,
      if i = pos c jF k l q then sVal c faccon m k l (aSum c tc g jF m) q else 0)
    (fun st : (Four → Int → ℝ) × (Out → Int → ℝ) => st.2 q i) (fun m s => modeStep_eq faccon tc g jF m s q i) st
  rw [forRange_add] at e
  refine e.trans ?_
  congr 1
  rw [Finset.sum_comm]
  refine Finset.sum_congr rfl fun k _ => ?_
  rw [Finset.sum_comm]
  refine Finset.sum_congr rfl fun l _ => ?_
  split
  · rfl
  · simp

/-- sum over the points of one surface, in which one point is picked -/
theorem pick1 (j0 : Int) (V : Int → Int → ℝ) {jF jF' k l : Int} (hk : 0 ≤ k ∧ k < c.s.nZeta)
    (hl : 0 ≤ l ∧ l < c.s.nThetaEff) (ht : c.s.nThetaReduced ≤ c.s.nThetaEff) :
    ∑ k' ∈ Ico 0 c.s.nZeta, ∑ l' ∈ Ico 0 c.s.nThetaReduced,
      (if idxKl c j0 jF k + l = idxKl c j0 jF' k' + l' then V k' l' else 0) = if jF = jF' ∧ l < c.s.nThetaReduced then V k l else 0 := by
  by_cases h : jF = jF' ∧ l < c.s.nThetaReduced
  · rw [if_pos h]
    obtain ⟨rfl, hl'⟩ := h
    have := pick j0 jF (jF + 1) (fun _ k l => V k l) (jF := jF) ⟨le_refl _, by omega⟩ hk ⟨hl.1, hl'⟩ ht
    rwa [sum_Ico_int_succ (by omega), Finset.Ico_self, Finset.sum_empty, zero_add] at this
  · rw [if_neg h]
    refine Finset.sum_eq_zero fun k' hk' => Finset.sum_eq_zero fun l' hl' => if_neg fun e => h ?_
    rw [Finset.mem_Ico] at hk' hl'
    obtain ⟨e1, _, e3⟩ := idxKl_inj hk.1 hk.2 hk'.1 hk'.2 hl.1 hl.2 hl'.1 (by omega) e
    exact ⟨e1, by omega⟩

end Verif.Constraint
