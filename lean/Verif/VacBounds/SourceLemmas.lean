import Verif.VacBounds.SourceSpec
import Verif.VacBounds.Lemmas

/-!
# Lemmas on the accesses of the second set of arrays
-/
namespace Verif.VacSrc
open Verif.VacBounds (Env In Admissible absInt Facts facts row row' tm td mnIdx)
open Arr

variable {E : Env} {full : Bool}

theorem Safe_append {l m : List Acc} : Safe E (l ++ m) ↔ Safe E l ∧ Safe E m := by
  simp only [Safe, List.mem_append, or_imp, forall_and]

theorem Safe_nil : Safe E [] ↔ True := by simp [Safe]

theorem Safe_loop {lo hi : Int} {body : Int → List Acc} :
    Safe E (loop lo hi body) ↔ ∀ j, lo ≤ j → j < hi → Safe E (body j) := by
  simp only [Safe, loop, List.mem_flatMap, mem_irange]
  constructor
  · intro h j h1 h2 x hx; exact h x ⟨j, ⟨h1, h2⟩, hx⟩
  · rintro h x ⟨j, ⟨h1, h2⟩, hx⟩; exact h j h1 h2 x hx

theorem Safe_flatMap {l : List Int} {body : Int → List Acc} :
    Safe E (l.flatMap body) ↔ ∀ j ∈ l, Safe E (body j) := by
  simp only [Safe, List.mem_flatMap]
  constructor
  · intro h j h1 x hx; exact h x ⟨j, h1, hx⟩
  · rintro h x ⟨j, h1, hx⟩; exact h j h1 x hx

theorem Safe_whenB {b : Bool} {l : List Acc} : Safe E (whenB b l) ↔ (b = true → Safe E l) := by
  cases b <;> simp [whenB, Safe]

/-- one array, one index -/
def In1 (E : Env) (i : Int) (a : Arr) : Prop :=
  match dims E a with
  | [u] => In i u
  | _ => False

/-- one array, two indices -/
def In2 (E : Env) (i j : Int) (a : Arr) : Prop :=
  match dims E a with
  | [u, w] => In i u ∧ In j w
  | _ => False

theorem Safe_on {l : List Arr} {i : Int} : Safe E (on l i) ↔ ∀ a ∈ l, In1 E i a := by
  simp only [Safe, on, List.mem_map, forall_exists_index, and_imp, forall_apply_eq_imp_iff₂, In1]
  constructor
  · intro h a ha
    have := h a ha
    generalize hd : dims E a = ds at this ⊢
    cases this with
    | cons h1 h2 => cases h2; exact h1
  · intro h a ha
    have := h a ha
    generalize hd : dims E a = ds at this ⊢
    match ds, this with
    | [u], hi => exact .cons hi .nil

theorem Safe_on2 {l : List Arr} {i j : Int} : Safe E (on2 l i j) ↔ ∀ a ∈ l, In2 E i j a := by
  simp only [Safe, on2, List.mem_map, forall_exists_index, and_imp, forall_apply_eq_imp_iff₂, In2]
  constructor
  · intro h a ha
    have := h a ha
    generalize hd : dims E a = ds at this ⊢
    cases this with
    | cons h1 h2 => cases h2 with | cons h3 h4 => cases h4; exact ⟨h1, h3⟩
  · intro h a ha
    have := h a ha
    generalize hd : dims E a = ds at this ⊢
    match ds, this with
    | [u, w], hi => exact .cons hi.1 (.cons hi.2 .nil)

/-- a group of arrays with the same extent -/
theorem grp {l : List Arr} {i d : Int} (h : ∀ a ∈ l, dims E a = [d]) (hi : In i d) :
    Safe E (on l i) := by
  rw [Safe_on]
  intro a ha
  unfold In1; rw [h a ha]; exact hi

theorem grpA {l : List Arr} {i d : Int} (h : ∀ a ∈ l, dims E a = [if E.s.lasym then d else 0])
    (hl : E.s.lasym = true) (hi : In i d) : Safe E (on l i) := by
  refine grp (d := d) (fun a ha => ?_) hi
  rw [h a ha, if_pos hl]

theorem grp2 {l : List Arr} {i j d e : Int} (h : ∀ a ∈ l, dims E a = [d, e]) (hi : In i d)
    (hj : In j e) : Safe E (on2 l i j) := by
  rw [Safe_on2]
  intro a ha
  unfold In2; rw [h a ha]; exact ⟨hi, hj⟩

/-- the extents of every array of a literal list -/
macro "dm1" : tactic => `(tactic|
  (simp only [d1, d2, d1a, d2a, List.forall_mem_cons, List.not_mem_nil, false_imp_iff, implies_true,
     and_true]
   (repeat' constructor)))

/-- Further facts on the sizes. -/
structure Facts2 (E : Env) : Prop extends Facts E where
  mpol : 1 ≤ E.s.mpol
  ntor : 0 ≤ E.s.ntor
  ntorNyq : E.s.ntor ≤ E.s.nnyq2
  mpolNyq : E.s.mpol - 1 ≤ E.s.mnyq2
  mnsize : E.s.mnsize = (E.s.ntor + 1) * E.s.mpol
  nfp : 1 ≤ E.s.nfp
  maxEff : E.ztMax ≤ E.s.nThetaEff * E.s.nZeta
  maxEven : E.ztMax ≤ E.s.nThetaEven * E.s.nZeta
  nzntEven : E.s.nZnT ≤ E.s.nThetaEven * E.s.nZeta
  nzntRed : E.s.nThetaReduced * E.s.nZeta ≤ E.s.nZnT
  nzntA : E.s.lasym = true → E.s.nZnT = E.s.nThetaEven * E.s.nZeta

theorem facts2 (h : Admissible E) : Facts2 E := by
  have F := facts h
  obtain ⟨lasym, nfp, mpol, ntor, ntheta, nzeta, mg, ng, hs⟩ := h.sizes
  have hC := Sizes.C07_sizes lasym nfp mpol ntor ntheta nzeta mg ng
  obtain ⟨g1, g2, g3⟩ := hC.1.2 ⟨E.s, hs⟩
  obtain ⟨⟨a1, a2, a3, a4⟩, -⟩ := hC.2 E.s hs
  have hnf := h.nf
  have hmf := h.mf
  have hsz : E.s.mnsize = E.s.mpol * (E.s.ntor + 1) := by
    unfold Sizes.mk at hs
    rw [if_neg (by omega), if_neg (by omega), if_neg (by omega)] at hs
    simp only [Outcome.ok.injEq] at hs
    rw [← hs]
  have n1 := F.nznt
  rw [Int.mul_comm] at n1
  have n2 := Int.mul_le_mul_of_nonneg_right F.effEven (show 0 ≤ E.s.nZeta by have := F.zeta; omega)
  have n3 := Int.mul_le_mul_of_nonneg_right F.redEff (show 0 ≤ E.s.nZeta by have := F.zeta; omega)
  have m1 := F.maxN
  have m2 := F.mnyq2
  have m3 := F.nnyq2
  exact { toFacts := F, mpol := by omega, ntor := by omega, ntorNyq := by omega,
          mpolNyq := by omega, mnsize := by rw [hsz, Int.mul_comm], nfp := by omega,
          maxEff := by omega, maxEven := by omega, nzntEven := by omega, nzntRed := by omega,
          nzntA := fun hl => by rw [n1, F.effA hl] }

/-- opens the lists of accesses down to groups of arrays -/
macro "opn" : tactic => `(tactic|
  simp only [Safe_append, Safe_loop, Safe_whenB, decide_eq_true_eq])

/-- the linear facts as hypotheses -/
macro "lin" F:term : tactic => `(tactic|
  (have nf0 := ($F).nf0; have mf0 := ($F).mf0; have zeta := ($F).zeta; have even := ($F).even
   have red := ($F).red; have redEff := ($F).redEff; have effEven := ($F).effEven
   have mnyq2 := ($F).mnyq2; have nnyq2 := ($F).nnyq2; have min0 := ($F).min0
   have minMax := ($F).minMax; have mpol := ($F).mpol; have ntor := ($F).ntor
   have ntorNyq := ($F).ntorNyq; have mpolNyq := ($F).mpolNyq; have nfp := ($F).nfp
   have maxEven := ($F).maxEven; have nzntEven := ($F).nzntEven; have nzntRed := ($F).nzntRed
   have maxN := ($F).maxN; have maxEff := ($F).maxEff))

/-- a goal `In i d` that is linear -/
macro "lnr" : tactic => `(tactic| exact ⟨by omega, by omega⟩)

theorem sgConstants_safe : Safe E (sgConstants E) := by
  unfold sgConstants; opn
  exact ⟨fun p h1 h2 => grp (by dm1) ⟨h1, h2⟩, fun k h1 h2 => grp (by dm1) ⟨h1, h2⟩⟩

theorem riConstants_safe : Safe E (riConstants E) := by
  unfold riConstants; opn
  refine ⟨⟨fun p h1 h2 => grp (by dm1) ⟨h1, h2⟩, fun k h1 h2 => grp (by dm1) ⟨h1, h2⟩⟩,
    fun h p h1 h2 => grp (d := nvper E) (l := [tanv_per]) ?_ ⟨h1, h2⟩⟩
  intro a ha
  rw [List.mem_singleton] at ha
  subst ha
  show [if E.s.nZeta = 1 then nvper E else 0] = _
  rw [if_pos h]

/-- index of a derivative array -/
theorem dIdx {i : Int} (hA : E.s.lasym = true → In i E.s.nZnT)
    (hS : ¬ E.s.lasym = true → E.ztMin ≤ i ∧ i < E.ztMax) :
    In (i - derivOffset E) (derivSize E) := by
  unfold derivOffset derivSize
  by_cases h : E.s.lasym = true
  · rw [if_pos h, if_pos h, Int.sub_zero]; exact hA h
  · rw [if_neg h, if_neg h]
    have := hS h
    exact ⟨by omega, by unfold Env.numLocal; omega⟩

theorem inverseDFT_safe (F : Facts2 E) : Safe E (inverseDFT E full) := by
  unfold inverseDFT; opn
  lin F
  intro n n1 n2 l l1 l2
  refine ⟨fun m m1 m2 => ?_, fun k k1 k2 => ?_⟩
  · have p := row (j := l) (n := E.s.nThetaReduced) (k := m) (q := E.s.mnyq2 + 1) (by lnr) (by lnr)
    have q := row (j := n) (n := E.s.ntor + 1) (k := m) (q := E.s.mpol) (by lnr) (by lnr)
    rw [← F.mnsize] at q
    exact ⟨⟨⟨grp (by dm1) p, grp (by dm1) q⟩, fun h => grpA (by dm1) h q⟩,
      fun _ => ⟨⟨grp (by dm1) p, grp (by dm1) q⟩, fun h => grpA (by dm1) h q⟩⟩
  · have p := row (j := n) (n := E.s.nnyq2 + 1) (k := k) (q := E.s.nZeta) (by lnr) (by lnr)
    have q := row (j := l) (n := E.s.nThetaReduced) (k := k) (q := E.s.nZeta) (by lnr) (by lnr)
    generalize l * E.s.nZeta + k = i at q ⊢
    obtain ⟨q1, q2⟩ := q
    refine ⟨⟨⟨grp (by dm1) p, grp (by dm1) (by lnr)⟩, fun h => grpA (by dm1) h (by lnr)⟩,
      fun hin => ?_⟩
    have hd : In (i - derivOffset E) (derivSize E) := by
      refine dIdx (fun _ => by lnr) fun h => ?_
      simp only [Bool.or_eq_true, h, Bool.and_eq_true, decide_eq_true_eq, false_or,
        Bool.false_eq_true] at hin
      exact hin
    have ha : E.s.lasym = true → In (i - derivOffset E) E.s.nZnT := by
      intro h
      unfold derivOffset
      rw [if_pos h]; lnr
    exact ⟨⟨⟨grp (by dm1) p, grp (by dm1) hd⟩, fun h => grpA (by dm1) h (ha h)⟩,
      fun _ => ⟨⟨grp (by dm1) p, grp (by dm1) hd⟩, fun h => grpA (by dm1) h (ha h)⟩⟩

theorem revIdx (F : Facts2 E) {l k : Int} (l1 : 0 ≤ l) (l2 : l < E.s.nThetaReduced) (k1 : 0 ≤ k)
    (k2 : k < E.s.nZeta) :
    In ((E.s.nThetaEven - l).tmod E.s.nThetaEven * E.s.nZeta + (E.s.nZeta - k).tmod E.s.nZeta)
      (E.s.nThetaEven * E.s.nZeta) := by
  lin F
  exact row (tm (by omega) (by omega)) (tm (by omega) (by omega))

theorem mirror_safe (F : Facts2 E) : Safe E (mirror E full) := by
  unfold mirror; opn
  lin F
  intro h
  have hA := F.nzntA h
  have hd : derivSize E = E.s.nZnT := by unfold derivSize; rw [if_pos h]
  have dd : ∀ {l : List Arr} {i : Int}, (∀ a ∈ l, dims E a = [derivSize E]) → In i E.s.nZnT →
      Safe E (on l i) := fun hl hi => grp hl (by rw [hd]; exact hi)
  refine ⟨fun l l1 l2 k k1 k2 => ?_, fun l l1 l2 k k1 k2 => ?_⟩
  · have q := row (j := l) (n := E.s.nThetaReduced) (k := k) (q := E.s.nZeta) (by lnr) (by lnr)
    have r := revIdx F (l := l) (k := k) (by omega) (by omega) k1 k2
    have q' : In (l * E.s.nZeta + k) E.s.nZnT := ⟨q.lo, by have := q.hi; omega⟩
    have q'' := q'
    have r' := r
    rw [hA] at q''
    rw [← hA] at r'
    exact ⟨⟨⟨⟨⟨⟨grp (by dm1) r, grp (by dm1) q''⟩, grpA (by dm1) h q'⟩, dd (by dm1) r'⟩,
      dd (by dm1) q'⟩, grpA (by dm1) h q'⟩,
      fun _ => ⟨⟨dd (by dm1) r', dd (by dm1) q'⟩, grpA (by dm1) h q'⟩⟩
  · have q := row (j := l) (n := E.s.nThetaReduced) (k := k) (q := E.s.nZeta) (by lnr) (by lnr)
    have q' : In (l * E.s.nZeta + k) E.s.nZnT := ⟨q.lo, by have := q.hi; omega⟩
    have q'' := q'
    rw [hA] at q''
    exact ⟨⟨⟨⟨grp (by dm1) q'', grpA (by dm1) h q'⟩, dd (by dm1) q'⟩, grpA (by dm1) h q'⟩,
      fun _ => ⟨dd (by dm1) q', grpA (by dm1) h q'⟩⟩

theorem derived_safe (F : Facts2 E) : Safe E (derivedSurfaceQuantities E full) := by
  unfold derivedSurfaceQuantities; opn
  lin F
  refine ⟨fun kl z1 z2 => ?_, fun _ => ⟨⟨fun kl h1 h2 => grp (by dm1) (by lnr),
    fun _ l l1 l2 k k1 k2 => ?_⟩, fun kl h1 h2 => ?_⟩⟩
  · have hz : In (kl - E.ztMin) E.numLocal := ⟨by omega, by unfold Env.numLocal; omega⟩
    have hd : In (kl - derivOffset E) (derivSize E) :=
      dIdx (fun _ => by lnr) fun _ => ⟨z1, z2⟩
    exact ⟨⟨⟨grp (by dm1) hz, grp (by dm1) (by lnr)⟩, grp (by dm1) hd⟩,
      fun _ => ⟨⟨⟨grp (by dm1) hz, grp (by dm1) hd⟩, grp (by dm1) hd⟩, grp (by dm1) (by lnr)⟩⟩
  · have q := row (j := l) (n := E.s.nThetaEven) (k := k) (q := E.s.nZeta) (by lnr) (by lnr)
    have r := revIdx F (l := l) (k := k) (by omega) (by omega) k1 k2
    exact ⟨grp (by dm1) q, grp (by dm1) r⟩
  · exact ⟨grp (by dm1) ⟨h1, h2⟩, grp (by dm1) (tm h1 (by omega))⟩

theorem cIdx {l n m : Int} (hl : In l (1 + E.nf + E.mf)) (hn : In n (E.nf + 1))
    (hm : In m (E.mf + 1)) :
    In ((l * (E.nf + 1) + n) * (E.mf + 1) + m) ((1 + E.nf + E.mf) * (E.nf + 1) * (E.mf + 1)) :=
  row (row hl hn) hm

theorem cIdx' {l n m : Int} (hl : In l (1 + E.nf + E.mf)) (hn : In n (E.nf + 1))
    (hm : In m (E.mf + 1)) :
    In (l * (E.mf + 1) * (E.nf + 1) + (n * (E.mf + 1) + m))
      ((1 + E.nf + E.mf) * (E.nf + 1) * (E.mf + 1)) := by
  have e : l * (E.mf + 1) * (E.nf + 1) + (n * (E.mf + 1) + m) =
      (l * (E.nf + 1) + n) * (E.mf + 1) + m := by ring
  rw [e]; exact cIdx hl hn hm

theorem coefficients_safe (F : Facts2 E) : Safe E (computeCoefficients E) := by
  unfold computeCoefficients; opn
  lin F
  refine ⟨fun n n1 n2 m m1 m2 q q1 q2 => ?_, fun n n1 n2 m m1 m2 l l1 l2 => ?_⟩
  · have hk : 0 ≤ absInt (m - n) ∧ absInt (m - n) ≤ m + n := by
      unfold absInt; split <;> omega
    generalize absInt (m - n) = k at hk q2 ⊢
    rw [Int.tdiv_eq_ediv_of_nonneg (by omega)] at q2
    exact grp (by dm1) (cIdx (by lnr) (by lnr) (by lnr))
  · exact ⟨⟨⟨grp (by dm1) (cIdx' (by lnr) (by lnr) (by lnr)),
      fun h => grp (by dm1) (cIdx' (by lnr) (by lnr) (by lnr))⟩,
      fun h => grp (by dm1) (cIdx' (by lnr) (by lnr) (by lnr))⟩,
      fun h => grp (by dm1) (cIdx' (by lnr) (by lnr) (by lnr))⟩

theorem recurrence_safe (F : Facts2 E) {T : Arr} (hT : dims E T = [E.mf + E.nf + 2, E.numLocal])
    {kl : Int} (hk : In kl E.numLocal) : Safe E (recurrence E T kl) := by
  unfold recurrence; opn
  lin F
  have hT' : ∀ a ∈ [T], dims E a = [E.mf + E.nf + 2, E.numLocal] := by
    intro a ha; rw [List.mem_singleton] at ha; subst ha; exact hT
  exact ⟨⟨⟨⟨grp2 hT' (by lnr) hk, grp (by dm1) hk⟩, fun l l1 l2 h => grp2 hT' (by lnr) hk⟩,
    fun l l1 l2 => grp2 hT' (by lnr) hk⟩,
    fun l l1 l2 => ⟨grp2 hT' (by lnr) hk, grp2 hT' (by lnr) hk⟩⟩

theorem prepare_safe (F : Facts2 E) : Safe E (prepareUpdate E full) := by
  unfold prepareUpdate; opn
  intro kl h1 h2
  exact ⟨⟨⟨grp (by dm1) ⟨h1, h2⟩, fun _ => grp (by dm1) ⟨h1, h2⟩⟩,
    recurrence_safe F rfl ⟨h1, h2⟩⟩, recurrence_safe F rfl ⟨h1, h2⟩⟩

theorem lr_in (F : Facts2 E) {l : Int} (h : In l E.s.nThetaEff) :
    In (lr E l) E.s.nThetaReduced := by
  lin F
  obtain ⟨h1, h2⟩ := h
  unfold lr; split
  · lnr
  · lnr

theorem point_facts (F : Facts2 E) {kl : Int} (z1 : E.ztMin ≤ kl) (z2 : kl < E.ztMax) :
    In (kl.tdiv E.s.nZeta) E.s.nThetaEff ∧ In (kl.tmod E.s.nZeta) E.s.nZeta ∧
    In (kl - E.ztMin) E.numLocal := by
  lin F
  exact ⟨td (by omega) (by omega) (by omega), tm (by omega) (by omega),
    ⟨by omega, by unfold Env.numLocal; omega⟩⟩

theorem analysum_safe (F : Facts2 E) {fl n m : Int} {idxs : List Int} {sin_ cos_ : Bool}
    (hf : In fl (1 + E.nf + E.mf)) (hn : In n (E.nf + 1)) (hm : In m (E.mf + 1))
    (hi : ∀ i ∈ idxs, In i E.mnpd) (hc : cos_ = true → E.s.lasym = true) {kl : Int}
    (z1 : E.ztMin ≤ kl) (z2 : kl < E.ztMax) :
    Safe E (analysumPoint E full fl n m idxs sin_ cos_ kl) := by
  unfold analysumPoint
  simp only [Safe_append, Safe_whenB, Safe_flatMap]
  lin F
  obtain ⟨hl, hk, hz⟩ := point_facts F z1 z2
  obtain ⟨f1, f2⟩ := hf
  obtain ⟨n1, n2⟩ := hn
  obtain ⟨m1, m2⟩ := hm
  have p := row (k := m) (q := E.s.mnyq2 + 1) (lr_in F hl) (by lnr)
  have q := row (j := n) (n := E.s.nnyq2 + 1) (by lnr) hk
  exact ⟨⟨⟨⟨⟨⟨⟨grp (by dm1) p, grp (by dm1) q⟩, grp2 (by dm1) (by lnr) hz⟩, grp (by dm1) hz⟩,
    grp (by dm1) hl⟩, fun _ => grp2 (by dm1) (by lnr) hz⟩,
    fun _ i h => ⟨grp (by dm1) (hi i h), fun _ => grp (by dm1) (row (hi i h) hz)⟩⟩,
    fun h' i h => ⟨grpA (by dm1) (hc h') (hi i h), fun _ => grpA (by dm1) (hc h') (row (hi i h) hz)⟩⟩

/-- a loop whose body moves the counter by a positive step is safe if its rows are -/
theorem rows_safe {step : Int → Int} {body : Int → List Acc} {lo hi : Int}
    (hs : ∀ kl, lo ≤ kl → kl < hi → 0 < step kl)
    (hb : ∀ kl, lo ≤ kl → kl < hi → Safe E (body kl)) :
    ∀ (f : Nat) (kl : Int), lo ≤ kl → hi - kl ≤ f → Safe E (rows step body hi f kl)
  | 0, kl, _, h2 => by
    unfold rows
    rw [if_neg (by omega)]; exact Safe_nil.2 trivial
  | f + 1, kl, h1, h2 => by
    unfold rows
    split
    · next h =>
      have := hs kl h1 h
      exact Safe_append.2 ⟨hb kl h1 h, rows_safe hs hb f _ (by omega) (by omega)⟩
    · exact Safe_nil.2 trivial

theorem rowPoint_safe (F : Facts2 E) {fl n posn negn kl i : Int} (hf : In fl (1 + E.nf + E.mf))
    (hn : In n (E.nf + 1)) (hp : In posn E.mnpd) (hq : In negn E.mnpd) (z1 : E.ztMin ≤ kl)
    (z2 : kl < E.ztMax) (i1 : 0 ≤ i) (i2 : i < remaining E kl) :
    Safe E (rowPoint E full fl n posn negn kl i) := by
  unfold rowPoint; opn
  lin F
  obtain ⟨hl, hk, hz⟩ := point_facts F z1 z2
  obtain ⟨f1, f2⟩ := hf
  obtain ⟨n1, n2⟩ := hn
  unfold remaining at i2
  have k0 := hk.lo
  have q := row (j := n) (n := E.s.nnyq2 + 1) (k := kl.tmod E.s.nZeta + i) (q := E.s.nZeta)
    (by lnr) (by lnr)
  have hz' : In (kl + i - E.ztMin) E.numLocal := ⟨by omega, by unfold Env.numLocal; omega⟩
  exact ⟨⟨⟨⟨grp (by dm1) hz', grp (by dm1) hl⟩, grp (by dm1) q⟩, grp2 (by dm1) (by lnr) hz'⟩,
    fun _ => ⟨⟨grp (by dm1) (row hp hz'), grp (by dm1) (row hq hz')⟩, grp2 (by dm1) (by lnr) hz'⟩⟩

theorem remaining_pos (F : Facts2 E) {kl : Int} (z1 : E.ztMin ≤ kl) (z2 : kl < E.ztMax) :
    0 < remaining E kl := by
  obtain ⟨-, hk, -⟩ := point_facts F z1 z2
  have := hk.hi
  unfold remaining; omega

theorem rowAcc_safe (F : Facts2 E) {fl n m posn negn kl : Int} (hf : In fl (1 + E.nf + E.mf))
    (hn : In n (E.nf + 1)) (hm : In m (E.mf + 1)) (hp : In posn E.mnpd) (hq : In negn E.mnpd)
    (z1 : E.ztMin ≤ kl) (z2 : kl < E.ztMax) : Safe E (rowAcc E full fl n m posn negn kl) := by
  unfold rowAcc; opn
  lin F
  obtain ⟨hl, hk, hz⟩ := point_facts F z1 z2
  have hr := remaining_pos F z1 z2
  have e := Int.tdiv_eq_ediv_of_nonneg (a := remaining E kl) (b := 4) (by omega)
  rw [e]
  have m1 := hm.lo
  have m2 := hm.hi
  have p := row (k := m) (q := E.s.mnyq2 + 1) (lr_in F hl) (by lnr)
  exact ⟨⟨⟨⟨grp (by dm1) p, grp (by dm1) hp⟩, grp (by dm1) hq⟩,
    fun q q1 q2 j j1 j2 => rowPoint_safe F hf hn hp hq z1 z2 (by omega) (by omega)⟩,
    fun i i1 i2 => rowPoint_safe F hf hn hp hq z1 z2 (by omega) i2⟩

theorem perform_safe (F : Facts2 E) : Safe E (performUpdate E full) := by
  unfold performUpdate; opn
  lin F
  intro fl f1 f2
  have hf : In fl (1 + E.nf + E.mf) := ⟨f1, f2⟩
  refine ⟨⟨fun _ kl z1 z2 => ?_, fun n n1 n2 m m1 m2 => ?_⟩, fun kl k1 k2 => ?_⟩
  · obtain ⟨-, -, hz⟩ := point_facts F z1 z2
    refine ⟨?_, grp (by dm1) hz⟩
    have a := grp2 (E := E) (l := [Slp, Slm]) (i := fl) (by dm1) (by lnr) hz
    have b := grp2 (E := E) (l := [Tlp, Tlm]) (i := fl) (by dm1) (by lnr) hz
    exact Safe_append.2 ⟨a, b⟩
  · have hn : In n (E.nf + 1) := ⟨n1, n2⟩
    have hm : In m (E.mf + 1) := ⟨m1, m2⟩
    have hp := mnIdx F.toFacts (a := E.nf + n) (m := m) (by lnr) hm
    have hq := mnIdx F.toFacts (a := E.nf - n) (m := m) (by lnr) hm
    refine ⟨⟨⟨grp (by dm1) (cIdx hf hn hm), grp (by dm1) (by lnr)⟩, grp (by dm1) (by lnr)⟩, ?_⟩
    split
    · rw [Safe_loop]
      intro kl z1 z2
      exact analysum_safe F hf hn hm (by simpa using hp) id z1 z2
    · rw [Safe_append, Safe_whenB, Safe_loop]
      refine ⟨rows_safe (lo := E.ztMin) (fun kl z1 z2 => remaining_pos F z1 z2)
        (fun kl z1 z2 => rowAcc_safe F hf hn hm hp hq z1 z2) _ _ (by omega) (by omega), ?_⟩
      intro h kl z1 z2
      refine analysum_safe F hf hn hm ?_ (fun _ => h) z1 z2
      intro i hi
      simp only [List.mem_cons, List.not_mem_nil, or_false] at hi
      rcases hi with rfl | rfl
      · exact hp
      · exact hq
  · exact ⟨grp (by dm1) ⟨k1, k2⟩, grp2 (by dm1) (by lnr) ⟨k1, k2⟩⟩

theorem divmod (F : Facts2 E) {kl : Int} (h : 0 ≤ kl) :
    kl.tdiv E.s.nZeta * E.s.nZeta + kl.tmod E.s.nZeta = kl := by
  rw [Int.mul_comm]; exact Int.mul_tdiv_add_tmod kl E.s.nZeta

theorem doLoop_safe (F : Facts2 E) {klp a b : Int} (z1 : E.ztMin ≤ klp) (z2 : klp < E.ztMax)
    (ha : 0 ≤ a) (hb : b ≤ E.s.nThetaEven * E.s.nZeta) : Safe E (doLoop E klp a b) := by
  lin F
  obtain ⟨hlp, hkp, hz⟩ := point_facts F z1 z2
  have kp1 := hkp.hi
  have lp1 := hlp.hi
  unfold doLoop
  refine rows_safe (lo := a) (fun kl h1 h2 => ?_) (fun kl h1 h2 => ?_) _ _ le_rfl (by omega)
  · have e := divmod F (kl := kl) (by omega)
    have t := tm (k := kl) (q := E.s.nZeta) (by omega) (by omega)
    have t2 := t.hi
    unfold kEnd; omega
  · unfold nearRow; opn
    intro k k1 k2
    have e := divmod F (kl := kl) (by omega)
    have t := tm (k := kl) (q := E.s.nZeta) (by omega) (by omega)
    have hl := td (k := kl) (n := E.s.nThetaEven) (q := E.s.nZeta) (by omega) (by omega) (by omega)
    have t1 := t.lo
    have l1 := hl.lo
    unfold kEnd at k2
    have hp : In (kl + (k - kl.tmod E.s.nZeta)) (E.s.nThetaEven * E.s.nZeta) :=
      ⟨by omega, by omega⟩
    have hg := row hz hp
    rw [← Int.mul_assoc E.numLocal] at hg
    exact ⟨⟨⟨⟨⟨grp (by dm1) (by lnr), grp (by dm1) hz⟩, grp (by dm1) (tm (by omega) (by omega))⟩,
      grp (by dm1) (tm (by omega) (by omega))⟩, grp (by dm1) hp⟩, grp (by dm1) hg⟩

theorem ri3d_safe (F : Facts2 E) : Safe E (riUpdate3d E) := by
  unfold riUpdate3d; opn
  lin F
  intro klp z1 z2
  obtain ⟨hl, hk, hz⟩ := point_facts F z1 z2
  have hp : In klp (E.s.nThetaEven * E.s.nZeta) := ⟨by omega, by omega⟩
  refine ⟨⟨⟨⟨⟨⟨⟨grp (by dm1) hz, grp (by dm1) hl⟩, grp (by dm1) hp⟩, grp (by dm1) (by lnr)⟩,
    fun kl h1 h2 => grp (by dm1) ⟨h1, h2⟩⟩, doLoop_safe F z1 z2 le_rfl hp.hi.le⟩,
    doLoop_safe F z1 z2 (by omega) le_rfl⟩, fun p p1 p2 => ?_⟩
  refine ⟨⟨⟨grp (by dm1) (by lnr), grp (by dm1) hz⟩, grp (by dm1) hp⟩, fun kl h1 h2 => ?_⟩
  have hg := row hz (k := kl) ⟨h1, h2⟩
  rw [← Int.mul_assoc E.numLocal] at hg
  exact ⟨grp (by dm1) ⟨h1, h2⟩, grp (by dm1) hg⟩

theorem ri2d_safe (F : Facts2 E) (h1z : E.s.nZeta = 1) : Safe E (riUpdate2d E) := by
  unfold riUpdate2d; opn
  lin F
  have eN : E.s.nThetaEven * E.s.nZeta = E.s.nThetaEven := by rw [h1z, Int.mul_one]
  have eM : E.s.nThetaEff * E.s.nZeta = E.s.nThetaEff := by rw [h1z, Int.mul_one]
  have eG : E.numLocal * E.s.nThetaEven * E.s.nZeta = E.numLocal * E.s.nThetaEven := by
    rw [h1z, Int.mul_one]
  have hv : ∀ a ∈ [tanv_per], dims E a = [nvper E] := by
    intro a ha
    rw [List.mem_singleton] at ha
    subst ha
    show [if E.s.nZeta = 1 then nvper E else 0] = _
    rw [if_pos h1z]
  have gN : ∀ {l : List Arr} {i : Int}, (∀ a ∈ l, dims E a = [E.s.nThetaEven * E.s.nZeta]) →
      0 ≤ i → i < E.s.nThetaEven → Safe E (on l i) :=
    fun hl h1 h2 => grp hl (by rw [eN]; exact ⟨h1, h2⟩)
  refine ⟨⟨fun i h1 h2 => grp (d := E.numLocal * E.s.nThetaEven * E.s.nZeta) (by dm1)
      (by rw [eG]; exact ⟨h1, h2⟩), fun i h1 h2 => gN (by dm1) h1 h2⟩, fun klp z1 z2 => ?_⟩
  obtain ⟨-, -, hz⟩ := point_facts F z1 z2
  refine ⟨⟨⟨⟨grp (by dm1) hz, grp (by dm1) (by lnr)⟩, gN (by dm1) (by omega) (by omega)⟩,
    fun kl h1 h2 => ⟨⟨gN (by dm1) h1 h2, gN (by dm1) (by omega) (by omega)⟩, grp (by dm1) hz⟩⟩,
    fun p p1 p2 => ⟨⟨⟨grp (by dm1) hz, gN (by dm1) (by omega) (by omega)⟩, grp hv ⟨p1, p2⟩⟩,
      fun kl h1 h2 _ => ?_⟩⟩
  have hg := row hz (k := kl) (q := E.s.nThetaEven) ⟨h1, h2⟩
  rw [← eG] at hg
  exact ⟨⟨⟨grp (by dm1) hz, grp (by dm1) (tm (by omega) (by omega))⟩, gN (by dm1) h1 h2⟩,
    grp (by dm1) hg⟩

theorem xyz_safe {l : List Arr} {i n : Int} (h : ∀ a ∈ l, dims E a = [3 * n]) (hi : In i n) :
    Safe E (xyz l i) := by
  obtain ⟨h1, h2⟩ := hi
  unfold xyz; opn
  exact ⟨⟨grp h (by lnr), grp h (by lnr)⟩, grp h (by lnr)⟩

theorem nvper_pos (F : Facts2 E) : 1 ≤ nvper E := by
  unfold nvper; split
  · omega
  · exact F.nfp

theorem external_safe (F : Facts2 E) : Safe E (externalField E) := by
  unfold externalField axisAndSurface; opn
  lin F
  have v1 := nvper_pos F
  have hN : E.s.nZeta ≤ E.s.nZeta * nvper E := by
    have := Int.mul_le_mul_of_nonneg_left v1 (show 0 ≤ E.s.nZeta by omega)
    omega
  refine ⟨⟨⟨⟨fun kl z1 z2 => ?_, ⟨⟨⟨⟨fun k k1 k2 => ?_, fun p p1 p2 k k1 k2 => ?_⟩, ?_⟩, ?_⟩,
    fun kl z1 z2 => ?_⟩⟩, fun i i1 i2 => ?_⟩, fun kl z1 z2 => ?_⟩, fun kl z1 z2 => ?_⟩
  · obtain ⟨-, -, hz⟩ := point_facts F z1 z2
    exact ⟨grp (by dm1) hz, grp (by dm1) (by lnr)⟩
  · refine ⟨xyz_safe (by dm1) (by lnr), ?_⟩
    exact grp (d := E.s.nZeta) (by dm1) ⟨k1, k2⟩
  · have q := row (j := p) (n := nvper E) (k := k) (q := E.s.nZeta) (by lnr) (by lnr)
    rw [Int.mul_comm (nvper E)] at q
    obtain ⟨q1, q2⟩ := q
    exact ⟨⟨xyz_safe (by dm1) (by lnr), xyz_safe (by dm1) (by lnr)⟩, grp (by dm1) ⟨k1, k2⟩⟩
  · exact xyz_safe (by dm1) (by lnr)
  · exact xyz_safe (by dm1) (by lnr)
  · obtain ⟨-, hk, hz⟩ := point_facts F z1 z2
    exact ⟨⟨xyz_safe (by dm1) hz, grp (by dm1) (by lnr)⟩, grp (by dm1) hk⟩
  · refine ⟨⟨xyz_safe (by dm1) (by lnr), xyz_safe (by dm1) (by lnr)⟩, fun kl z1 z2 => ?_⟩
    obtain ⟨-, -, hz⟩ := point_facts F z1 z2
    exact xyz_safe (by dm1) hz
  · obtain ⟨-, hk, hz⟩ := point_facts F z1 z2
    exact ⟨⟨xyz_safe (by dm1) hz, grp (by dm1) hk⟩, grp (by dm1) hz⟩
  · obtain ⟨-, -, hz⟩ := point_facts F z1 z2
    have hd : In (kl - derivOffset E) (derivSize E) :=
      dIdx (fun _ => by lnr) fun _ => ⟨z1, z2⟩
    exact ⟨⟨grp (by dm1) hz, grp (by dm1) hd⟩, grp (by dm1) (by lnr)⟩

theorem pressure_safe (F : Facts2 E) : Safe E (vacuumPressure E) := by
  unfold vacuumPressure; opn
  lin F
  refine ⟨fun kl z1 z2 => ?_, fun kl z1 z2 => ?_⟩
  · obtain ⟨hl, -, hz⟩ := point_facts F z1 z2
    exact ⟨grp (by dm1) hz, grp (by dm1) hl⟩
  · obtain ⟨hl, -, hz⟩ := point_facts F z1 z2
    have hd : In (kl - derivOffset E) (derivSize E) :=
      dIdx (fun _ => by lnr) fun _ => ⟨z1, z2⟩
    refine ⟨⟨grp (by dm1) hz, ?_⟩, grp (by dm1) hd⟩
    have a := grp (E := E) (l := [bSqVacShare, vacuum_b_r, vacuum_b_phi, vacuum_b_z]) (i := kl)
      (by dm1) (by lnr)
    have b := grp (E := E) (l := [r1b]) (i := kl) (by dm1) (by lnr)
    exact Safe_append.2 ⟨a, b⟩

/-- a loop that moves its own counter: if every row picks its points in order, so does the loop -/
theorem rows_filter {step : Int → Int} {body : Int → List Acc} {lo hi : Int} {p : Acc → Bool}
    {g : Int → Acc} (hs : ∀ kl, lo ≤ kl → kl < hi → 0 < step kl ∧ kl + step kl ≤ hi)
    (hb : ∀ kl, lo ≤ kl → kl < hi →
      (body kl).filter p = (irange kl (kl + step kl)).map g) :
    ∀ (f : Nat) (kl : Int), lo ≤ kl → hi - kl ≤ f →
      (rows step body hi f kl).filter p = (irange kl hi).map g
  | 0, kl, _, h2 => by
    unfold rows
    rw [if_neg (by omega), irange_empty (by omega)]; rfl
  | f + 1, kl, h1, h2 => by
    unfold rows
    split
    · next h =>
      obtain ⟨s1, s2⟩ := hs kl h1 h
      rw [List.filter_append, hb kl h1 h, max_eq_right s1.le,
        rows_filter hs hb f _ (by omega) (by omega), ← List.map_append,
        ← irange_split (by omega) s2]
    · rw [irange_empty (by omega)]; rfl

theorem loop_filter {lo hi : Int} {body : Int → List Acc} {p : Acc → Bool} {g : Int → Acc}
    (h : ∀ j, lo ≤ j → j < hi → (body j).filter p = [g j]) :
    (loop lo hi body).filter p = (irange lo hi).map g := by
  unfold loop
  rw [List.filter_flatMap, List.map_eq_flatMap]
  refine List.flatMap_congr fun j hj => ?_
  rw [mem_irange] at hj
  exact h j hj.1 hj.2

theorem irange_shift (a lo hi : Int) :
    (irange lo hi).map (fun i => a + i) = irange (a + lo) (a + hi) := by
  unfold irange
  rw [List.map_map, show a + hi - (a + lo) = hi - lo by omega]
  refine List.map_congr_left fun k _ => ?_
  simp only [Function.comp]; omega

/-- groups of four, one after the other -/
theorem irange_groups {α : Type} (g : Int → α) :
    ∀ n : Nat, (irange 0 n).flatMap (fun q => (irange 0 4).map fun j => g (4 * q + j)) =
      (irange 0 (4 * n)).map g
  | 0 => by simp [irange]
  | n + 1 => by
    have e : ((n + 1 : Nat) : Int) = (n : Int) + 1 := by omega
    rw [e, irange_succ (by omega), List.flatMap_append, irange_groups g n,
      irange_split (lo := 0) (mid := 4 * (n : Int)) (hi := 4 * ((n : Int) + 1)) (by omega)
        (by omega), List.map_append, List.flatMap_cons, List.flatMap_nil, List.append_nil]
    congr 1
    have := irange_shift (4 * (n : Int)) 0 4
    rw [Int.add_zero] at this
    rw [show 4 * ((n : Int) + 1) = 4 * (n : Int) + 4 by omega, ← this, List.map_map]
    rfl

theorem doLoop_green (F : Facts2 E) {klp a b : Int} (ha : 0 ≤ a) :
    (doLoop E klp a b).filter isGreen = (irange a b).map fun p =>
      ⟨greenp, [(klp - E.ztMin) * (E.s.nThetaEven * E.s.nZeta) + p]⟩ := by
  lin F
  unfold doLoop
  refine rows_filter (lo := a) (fun kl h1 h2 => ?_) (fun kl h1 h2 => ?_) _ _ le_rfl (by omega)
  · have e := divmod F (kl := kl) (by omega)
    have t2 := (tm (k := kl) (q := E.s.nZeta) (by omega) (by omega)).hi
    unfold kEnd; omega
  · unfold nearRow
    rw [loop_filter (g := fun k => ⟨greenp, [(klp - E.ztMin) * (E.s.nThetaEven * E.s.nZeta) +
      (kl + (k - kl.tmod E.s.nZeta))]⟩) (fun k _ _ => rfl)]
    have := irange_shift (kl - kl.tmod E.s.nZeta) (kl.tmod E.s.nZeta) (kEnd E kl b)
    rw [show kl - kl.tmod E.s.nZeta + kl.tmod E.s.nZeta = kl by omega,
      show kl - kl.tmod E.s.nZeta + kEnd E kl b = kl + (kEnd E kl b - kl.tmod E.s.nZeta) by omega]
      at this
    rw [← this, List.map_map]
    refine List.map_congr_left fun k _ => ?_
    simp only [Function.comp]
    rw [show kl + (k - kl.tmod E.s.nZeta) = kl - kl.tmod E.s.nZeta + k by omega]

theorem rowPoint_filter {fl n posn negn kl i : Int} :
    (rowPoint E full fl n posn negn kl i).filter isNormalField = [⟨bDotN, [kl + i - E.ztMin]⟩] := by
  cases full <;> rfl

theorem rowAcc_filter (F : Facts2 E) {fl n m posn negn kl : Int} (z1 : E.ztMin ≤ kl)
    (z2 : kl < E.ztMax) : (rowAcc E full fl n m posn negn kl).filter isNormalField =
      (irange kl (kl + remaining E kl)).map fun p => ⟨bDotN, [p - E.ztMin]⟩ := by
  have hr := remaining_pos F z1 z2
  have e := Int.tdiv_eq_ediv_of_nonneg (a := remaining E kl) (b := 4) (by omega)
  unfold rowAcc
  obtain ⟨n', hn⟩ := Int.eq_ofNat_of_zero_le (show 0 ≤ remaining E kl / 4 by omega)
  simp only [List.filter_append, e]
  rw [loop_filter (lo := 4 * (remaining E kl / 4)) (g := fun i => ⟨bDotN, [kl + i - E.ztMin]⟩)
    (fun i _ _ => rowPoint_filter)]
  have g := irange_groups (fun i => (⟨bDotN, [kl + i - E.ztMin]⟩ : Acc)) n'
  have l4 : (loop 0 (remaining E kl / 4) fun q => loop 0 4 fun j =>
      rowPoint E full fl n posn negn kl (4 * q + j)).filter isNormalField =
      (irange 0 (4 * n')).map fun i => (⟨bDotN, [kl + i - E.ztMin]⟩ : Acc) := by
    rw [← g, hn]
    unfold loop
    rw [List.filter_flatMap]
    refine List.flatMap_congr fun q _ => ?_
    exact loop_filter (fun j _ _ => rowPoint_filter)
  rw [l4, hn]
  have s := irange_split (lo := 0) (mid := 4 * (n' : Int)) (hi := remaining E kl) (by omega)
    (by omega)
  have sh := irange_shift kl 0 (remaining E kl)
  rw [Int.add_zero] at sh
  rw [← sh, List.map_map, s, List.map_append]
  rfl

end Verif.VacSrc
