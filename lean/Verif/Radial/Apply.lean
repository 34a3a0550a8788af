import Verif.Radial.Model
import Verif.Partition.Props

/-! # Gathering, solving and redistributing -/
namespace Verif.Radial
open Verif Partition

/-- a loop of which only pass `i0` changes what is looked at -/
theorem pickLoop {S V : Type} (proj : S → V) (f : Int → S → S) {lo hi i0 : Int} (w : V → V)
    (hne : ∀ i s, lo ≤ i → i < hi → i ≠ i0 → proj (f i s) = proj s) (heq : ∀ s, lo ≤ i0 → i0 < hi → proj (f i0 s) = w (proj s)) (s : S) :
    proj (forRange lo hi f s) = if lo ≤ i0 ∧ i0 < hi then w (proj s) else proj s := by
  rcases le_total hi lo with h | h
  · rw [forRange_empty h, if_neg (by omega)]
  · exact forRange_inv h f s (fun i t => proj t = if lo ≤ i0 ∧ i0 < i then w (proj s) else proj s) (by rw [if_neg (by omega)]) (by
      intro i t h0 h1 ih
      by_cases e : i = i0
      · subst e
        rw [heq t h0 h1, ih, if_neg (by omega), if_pos (by omega)]
      · rw [hne i t h0 h1 e, ih]
        exact if_congr (by omega) rfl rfl)

variable {s : Sizes.Sizes} {ns : Int}

theorem gather_mat (t : Thread) (h : Shared) (k : Arr) (mn j : Int) (m0 : 0 ≤ mn) (m1 : mn < s.mnsize) :
    (gather s ns t h).mat k mn j = if t.r.nsMinF ≤ j ∧ j < t.r.nsMaxF then t.mat k ((j - t.r.nsMinF) * s.mnsize + mn) else h.mat k mn j := by
  unfold gather
  have inner (jF : Int) (h : Shared) := pickLoop (fun h : Shared => h.mat k mn j) (fun mn (h : Shared) =>
    ({ mat := fun q mn' j => if mn' = mn ∧ j = jF then t.mat q ((jF - t.r.nsMinF) * s.mnsize + mn) else h.mat q mn' j
       rhs := forRange 0 s.num_basis (fun b rhs => fun q mn' j => if mn' = mn ∧ j = b * ns + jF then t.f q b ((jF - t.r.nsMinF) * s.mnsize + mn) else rhs q mn' j) h.rhs } : Shared))
    (lo := 0) (hi := s.mnsize) (i0 := mn) (fun v => if j = jF then t.mat k ((jF - t.r.nsMinF) * s.mnsize + mn) else v)
    (by intro i s _ _ hne; simp only [fun e : mn = i => hne e.symm, false_and, if_false]; rw [if_neg (fun e => hne e.1.symm)])
    (by intro s _ _; simp only [true_and]) h
  refine (pickLoop (fun h : Shared => h.mat k mn j) _ (i0 := j) (fun _ => t.mat k ((j - t.r.nsMinF) * s.mnsize + mn)) ?_ ?_ h)
  · intro i s _ _ hne
    refine (inner i s).trans ?_
    rw [if_pos ⟨m0, m1⟩, if_neg (fun e => hne e.symm)]
  · intro s _ _
    refine (inner j s).trans ?_
    rw [if_pos ⟨m0, m1⟩, if_pos rfl]

theorem gather_rhs (t : Thread) (h : Shared) (q : Side) (mn b j : Int) (m0 : 0 ≤ mn) (m1 : mn < s.mnsize) (b0 : 0 ≤ b) (b1 : b < s.num_basis)
    (j0 : 0 ≤ j) (j1 : j < ns) (r0 : 0 ≤ t.r.nsMinF) (r1 : t.r.nsMaxF ≤ ns) :
    (gather s ns t h).rhs q mn (b * ns + j) = if t.r.nsMinF ≤ j ∧ j < t.r.nsMaxF then t.f q b ((j - t.r.nsMinF) * s.mnsize + mn) else h.rhs q mn (b * ns + j) := by
  unfold gather
  have basis (jF mn' : Int) (hj : 0 ≤ jF) (hj' : jF < ns) (rhs : Side → Int → Int → ℝ) := pickLoop (fun rhs : Side → Int → Int → ℝ => rhs q mn (b * ns + j))
    (fun b rhs => fun q mn'' j => if mn'' = mn' ∧ j = b * ns + jF then t.f q b ((jF - t.r.nsMinF) * s.mnsize + mn') else rhs q mn'' j)
    (lo := 0) (hi := s.num_basis) (i0 := b) (fun v => if mn = mn' ∧ j = jF then t.f q b ((jF - t.r.nsMinF) * s.mnsize + mn') else v)
    (by
      intro i s _ _ hne
      exact if_neg (fun e => hne (flat_inj j0 j1 hj hj' e.2).1.symm))
    (by intro s _ _; exact if_congr (and_congr_right fun _ => by omega) rfl rfl) rhs
  have inner (jF : Int) (hj : 0 ≤ jF) (hj' : jF < ns) (h : Shared) := pickLoop (fun h : Shared => h.rhs q mn (b * ns + j)) (fun mn (h : Shared) =>
    ({ mat := fun q mn' j => if mn' = mn ∧ j = jF then t.mat q ((jF - t.r.nsMinF) * s.mnsize + mn) else h.mat q mn' j
       rhs := forRange 0 s.num_basis (fun b rhs => fun q mn' j => if mn' = mn ∧ j = b * ns + jF then t.f q b ((jF - t.r.nsMinF) * s.mnsize + mn) else rhs q mn' j) h.rhs } : Shared))
    (lo := 0) (hi := s.mnsize) (i0 := mn) (fun v => if j = jF then t.f q b ((jF - t.r.nsMinF) * s.mnsize + mn) else v)
    (by
      intro i s _ _ hne
      refine (basis jF i hj hj' s.rhs).trans ?_
      rw [if_pos ⟨b0, b1⟩, if_neg (fun e => hne e.1.symm)])
    (by
      intro s _ _
      refine (basis jF mn hj hj' s.rhs).trans ?_
      rw [if_pos ⟨b0, b1⟩]
      simp only [true_and]) h
  refine (pickLoop (fun h : Shared => h.rhs q mn (b * ns + j)) _ (i0 := j) (fun _ => t.f q b ((j - t.r.nsMinF) * s.mnsize + mn)) ?_ ?_ h)
  · intro i s a b hne
    refine (inner i (by omega) (by omega) s).trans ?_
    rw [if_pos ⟨m0, m1⟩, if_neg (fun e => hne e.symm)]
  · intro s _ _
    refine (inner j j0 j1 s).trans ?_
    rw [if_pos ⟨m0, m1⟩, if_pos rfl]

/-- what mode `mn` looks like -/
def Shared.view (mn : Int) (h : Shared) : (Arr → Int → ℝ) × (Side → Int → ℝ) := (fun k => h.mat k mn, fun q => h.rhs q mn)

/-- result of the solver for one side -/
noncomputable def solved (s : Sizes.Sizes) (ns jMax mn : Int) (v : (Arr → Int → ℝ) × (Side → Int → ℝ)) (q : Side) : Int → ℝ :=
  (Tridiag.solve ns (jMinOf (mn.tdiv (s.ntor + 1))) jMax s.num_basis ⟨v.1 q.sup, v.1 q.diag, v.1 q.sub, v.2 q⟩).c

theorem solveMode_ne {jMax mn mn' : Int} (hne : mn ≠ mn') (q : Side) (h : Shared) : (solveMode s ns jMax mn' q h).view mn = h.view mn := by
  unfold Shared.view solveMode
  simp only [hne, and_false, if_false]

theorem solveMode_rhs {jMax mn : Int} (h : Shared) (q : Side) :
    (solveMode s ns jMax mn .Z (solveMode s ns jMax mn .R h)).rhs q mn = solved s ns jMax mn (h.view mn) q := by
  cases q <;> simp [solveMode, solved, Shared.view, Side.sup, Side.diag, Side.sub]

theorem solveModes_eq {nt jMax mn : Int} (hnt : 1 ≤ nt) (hs : 0 ≤ s.mnsize) (m0 : 0 ≤ mn) (m1 : mn < s.mnsize) (h : Shared) (q : Side) :
    (forRange 0 nt (fun t h => solveModes s ns jMax nt t h) h).rhs q mn = solved s ns jMax mn (h.view mn) q := by
  obtain ⟨t0, a0, a1, a2, a3⟩ := split_exists hs (show 0 < nt by omega) m0 m1
  -- the view is unchanged until the owner of the mode solves it
  let w : (Arr → Int → ℝ) × (Side → Int → ℝ) → (Arr → Int → ℝ) × (Side → Int → ℝ) := fun v =>
    (solveMode s ns jMax mn .Z (solveMode s ns jMax mn .R ⟨fun k _ => v.1 k, fun q _ => v.2 q⟩)).view mn
  have hw (h : Shared) : (solveMode s ns jMax mn .Z (solveMode s ns jMax mn .R h)).view mn = w (h.view mn) := by
    simp only [w]
    unfold Shared.view solveMode
    simp
  have thr (t : Int) (h : Shared) : (solveModes s ns jMax nt t h).view mn
      = if splitMin s.mnsize nt t ≤ mn ∧ mn < splitMax s.mnsize nt t then w (h.view mn) else h.view mn := by
    unfold solveModes
    refine pickLoop (Shared.view mn) _ w ?_ ?_ h
    · intro i s _ _ hne
      rw [solveMode_ne (fun e => hne e.symm), solveMode_ne (fun e => hne e.symm)]
    · intro s _ _
      exact hw s
  have all := pickLoop (Shared.view mn) (fun t h => solveModes s ns jMax nt t h) (lo := 0) (hi := nt) (i0 := t0) w (by
      intro i s i0 i1 hne
      rw [thr, if_neg]
      rintro ⟨b0, b1⟩
      exact hne (split_unique hs (by omega) b0 b1 a2 a3))
    (by
      intro s _ _
      rw [thr, if_pos ⟨a2, a3⟩]) h
  rw [if_pos ⟨a0, a1⟩] at all
  have := congrFun (congrArg Prod.snd all) q
  rw [← hw] at this
  rw [← solveMode_rhs]
  exact this

theorem redistribute_eq (h : Shared) (t : Thread) (q : Side) {b j mn : Int} (j0 : t.r.nsMinF ≤ j) (j1 : j < t.r.nsMaxF) (m0 : 0 ≤ mn) (m1 : mn < s.mnsize)
    (b0 : 0 ≤ b) (b1 : b < s.num_basis) : (redistribute s ns h t).f q b ((j - t.r.nsMinF) * s.mnsize + mn) = h.rhs q mn (b * ns + j) := by
  unfold redistribute
  simp only []
  set i := (j - t.r.nsMinF) * s.mnsize + mn with hi
  have basis (jF mn' : Int) (k0 : 0 ≤ mn') (k1 : mn' < s.mnsize) (f : Side → Int → Int → ℝ) := pickLoop (fun f : Side → Int → Int → ℝ => f q b i)
    (fun b f => fun q b' i => if b' = b ∧ i = (jF - t.r.nsMinF) * s.mnsize + mn' then h.rhs q mn' (b * ns + jF) else f q b' i)
    (lo := 0) (hi := s.num_basis) (i0 := b) (fun v => if jF = j ∧ mn' = mn then h.rhs q mn (b * ns + j) else v)
    (by
      intro i' s _ _ hne
      exact if_neg (fun e => hne e.1.symm))
    (by
      intro s _ _
      simp only [true_and, hi]
      by_cases e : jF = j ∧ mn' = mn
      · rw [if_pos e, if_pos (by rw [e.1, e.2]), e.1, e.2]
      · rw [if_neg e, if_neg]
        intro e2
        obtain ⟨e3, e4⟩ := flat_inj m0 m1 k0 k1 e2
        exact e ⟨by omega, e4.symm⟩) f
  have inner (jF : Int) (f : Side → Int → Int → ℝ) := pickLoop (fun f : Side → Int → Int → ℝ => f q b i)
    (fun mn' f => forRange 0 s.num_basis (fun b f => fun q b' i => if b' = b ∧ i = (jF - t.r.nsMinF) * s.mnsize + mn' then h.rhs q mn' (b * ns + jF) else f q b' i) f)
    (lo := 0) (hi := s.mnsize) (i0 := mn) (fun v => if jF = j then h.rhs q mn (b * ns + j) else v)
    (by
      intro i' s a0 a1 hne
      refine (basis jF i' a0 a1 s).trans ?_
      rw [if_pos ⟨b0, b1⟩, if_neg (fun e => hne e.2)])
    (by
      intro s _ _
      refine (basis jF mn m0 m1 s).trans ?_
      rw [if_pos ⟨b0, b1⟩]
      simp only [and_true]) f
  refine (pickLoop (fun f : Side → Int → Int → ℝ => f q b i) _ (i0 := j) (fun _ => h.rhs q mn (b * ns + j)) ?_ ?_ t.f).trans ?_
  · intro i' s _ _ hne
    refine (inner i' s).trans ?_
    rw [if_pos ⟨m0, m1⟩, if_neg hne]
  · intro s _ _
    refine (inner j s).trans ?_
    rw [if_pos ⟨m0, m1⟩, if_pos rfl]
  · rw [if_pos ⟨j0, j1⟩]

end Verif.Radial
