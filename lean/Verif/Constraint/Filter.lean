import Verif.Constraint.Lemmas

/-!
# `deAliasConstraintForce` is a projection
-/
namespace Verif.Constraint
open Verif Verif.Fourier Partition Finset Transform Spec

variable {c : Ctx}

/-! ### the tables hold the angular functions -/

theorem wave_tab (h : GoodP c) {m n k l : Int} (m0 : 0 ≤ m) (m1 : m < c.s.mpol) (n0 : 0 ≤ n) (n1 : n < c.s.ntor + 1)
    (hk : 0 ≤ k ∧ k < c.s.nZeta) (hl : 0 ≤ l ∧ l < c.s.nThetaReduced) :
    (polAt c m l).sinmu * (torAt c k n).cosnv = waveAt c.s .sc m n k l ∧
    (polAt c m l).cosmu * (torAt c k n).sinnv = waveAt c.s .cs m n k l ∧
    (polAt c m l).cosmu * (torAt c k n).cosnv = waveAt c.s .cc m n k l ∧
    (polAt c m l).sinmu * (torAt c k n).sinnv = waveAt c.s .ss m n k l := by
  rw [polAt_eq h m0 m1 hl.1 hl.2, torAt_eq h.toGood hk.1 hk.2 n0 (by omega)]
  unfold waveAt wave polEntry torEntry
  dsimp only
  rw [theta_eq h, zeta_eq h]
  refine ⟨?_, ?_, ?_, ?_⟩ <;> ring

/-- sign of an angular function under the reflection of both angles -/
def sg : Fam → ℝ
  | .sc | .cs => -1
  | .cc | .ss => 1

theorem wave_reflect (h : Asym.Full c) (f : Fam) (m n : Int) {k l : Int} (hk : 0 ≤ k ∧ k < c.s.nZeta)
    (hl : 0 ≤ l ∧ l < c.s.nThetaEven) : waveAt c.s f m n (Asym.kRev c k) (Asym.lRev c l) = sg f * waveAt c.s f m n k l := by
  obtain ⟨i, hi⟩ := Asym.theta_rev h hl
  obtain ⟨i', hi'⟩ := Asym.phi_rev h hk
  unfold waveAt
  rw [hi, hi']
  generalize Transform.Spec.gridTheta c.s l = θ
  generalize Transform.Spec.gridPhi c.s k = φ
  have hn : (c.s.nfp : ℝ) ≠ 0 := by
    have : (1:ℝ) ≤ c.s.nfp := by exact_mod_cast h.nfp
    linarith
  have e1 : (m : ℝ) * (i * (2 * Real.pi) - θ) = ((m * i : Int) : ℝ) * (2 * Real.pi) - m * θ := by push_cast; ring
  have e2 : (n : ℝ) * c.s.nfp * (i' * (2 * Real.pi) / c.s.nfp - φ) = ((n * i' : Int) : ℝ) * (2 * Real.pi) - n * c.s.nfp * φ := by
    push_cast; field_simp
  unfold wave
  rw [e1, e2, Real.cos_int_mul_two_pi_sub, Real.sin_int_mul_two_pi_sub, Real.cos_int_mul_two_pi_sub, Real.sin_int_mul_two_pi_sub]
  cases f <;> dsimp only [sg] <;> ring

/-! ### coefficients -/

/-- `Spec.coef` as a sum over both angles -/
noncomputable def coefKl (c : Ctx) (g : Int → Int → ℝ) (f : Fam) (m n : Int) : ℝ :=
  ∑ k ∈ Ico 0 c.s.nZeta, ∑ l ∈ Ico 0 c.s.nThetaEff, g k l * waveAt c.s f m n k l * Sizes.wInt c.s l

theorem lRev_same (l : Int) : lRev c l = Asym.lRev c l := rfl

/-- coefficient that is computed for each angular function -/
def fourOf : Fam → Four
  | .sc => .gsc
  | .cs => .gcs
  | .cc => .gcc
  | .ss => .gss

/-- the poloidal and the toroidal factor -/
noncomputable def polPart (p : PolEntry) : Fam → ℝ
  | .sc | .ss => p.sinmu
  | .cs | .cc => p.cosmu
noncomputable def torPart (t : TorEntry) : Fam → ℝ
  | .sc | .cc => t.cosnv
  | .cs | .ss => t.sinnv

theorem parts (h : GoodP c) {m n k l : Int} (m0 : 0 ≤ m) (m1 : m < c.s.mpol) (n0 : 0 ≤ n) (n1 : n < c.s.ntor + 1)
    (hk : 0 ≤ k ∧ k < c.s.nZeta) (hl : 0 ≤ l ∧ l < c.s.nThetaReduced) (f : Fam) :
    polPart (polAt c m l) f * torPart (torAt c k n) f = waveAt c.s f m n k l := by
  obtain ⟨h1, h2, h3, h4⟩ := wave_tab h m0 m1 n0 n1 hk hl
  cases f
  · exact h1
  · exact h2
  · exact h3
  · exact h4

theorem aSum_sym {nfp mpol ntor ntheta nzeta mg ng : Int} (hs : Sizes.mk false nfp mpol ntor ntheta nzeta mg ng = .ok c.s)
    (tc : ℝ) (g : Int → ℝ) (jF : Int) {m n : Int} (m0 : 0 ≤ m) (m1 : m < c.s.mpol) (n0 : 0 ≤ n) (n1 : n < c.s.ntor + 1) (f : Fam)
    (hf : f ∈ fams c.s.lasym) :
    aSum c tc g jF m (fourOf f) n = tc * coefKl c (fun k l => g (idxKl c c.r.nsMinF jF k + l)) f m n := by
  have h := goodP_of_mk hs
  obtain ⟨h1, h2, h3⟩ := sizes_symm hs
  rw [h1] at hf
  unfold aSum coefKl
  rw [Finset.mul_sum]
  refine Finset.sum_congr rfl fun k hk => ?_
  rw [Finset.mem_Ico] at hk
  rw [h2, Finset.mul_sum]
  unfold aVal
  rw [if_pos h1]
  have hf' : f = .sc ∨ f = .cs := by simpa [fams] using hf
  rcases hf' with rfl | rfl
  · dsimp only [fourOf]
    rw [Finset.mul_sum, Finset.sum_mul]
    refine Finset.sum_congr rfl fun l hl => ?_
    rw [Finset.mem_Ico] at hl
    rw [← (wave_tab h m0 m1 n0 n1 hk hl).1, (pol_weights h m0 m1 hl.1 hl.2).2.1, pw_eq hs]
    ring
  · dsimp only [fourOf]
    rw [Finset.mul_sum, Finset.sum_mul]
    refine Finset.sum_congr rfl fun l hl => ?_
    rw [Finset.mem_Ico] at hl
    rw [← (wave_tab h m0 m1 n0 n1 hk hl).2.1, (pol_weights h m0 m1 hl.1 hl.2).1, pw_eq hs]
    ring

theorem aSum_asym {nfp mpol ntor ntheta nzeta mg ng : Int} (hs : Sizes.mk true nfp mpol ntor ntheta nzeta mg ng = .ok c.s)
    (tc : ℝ) (g : Int → ℝ) (jF : Int) {m n : Int} (m0 : 0 ≤ m) (m1 : m < c.s.mpol) (n0 : 0 ≤ n) (n1 : n < c.s.ntor + 1) (f : Fam) :
    aSum c tc g jF m (fourOf f) n = tc * coefKl c (fun k l => g (idxKl c c.r.nsMinF jF k + l)) f m n := by
  have h := Asym.full_of_mk hs
  have hl : c.s.lasym = true := ((Sizes.C07_sizes true nfp mpol ntor ntheta nzeta mg ng).2 c.s hs).1.1
  set G : Int → Int → ℝ := fun k l => g (idxKl c c.r.nsMinF jF k + l) with hG
  have e1 : coefKl c G f m n = ∑ k ∈ Ico 0 c.s.nZeta, ∑ l ∈ Ico 0 c.s.nThetaEven, Asym.fw c * (G k l * waveAt c.s f m n k l) := by
    unfold coefKl
    rw [h.full]
    refine Finset.sum_congr rfl fun k _ => Finset.sum_congr rfl fun l _ => ?_
    rw [Asym.wInt_full hs]; ring
  have e2 : ∑ k ∈ Ico 0 c.s.nZeta, ∑ l ∈ Ico 0 c.s.nThetaEven, Asym.fw c * (G k l * waveAt c.s f m n k l) =
      ∑ k ∈ Ico 0 c.s.nZeta, ∑ l ∈ Ico 0 c.s.nThetaReduced,
        pw c l * ((G k l + sg f * G (Asym.kRev c k) (Asym.lRev c l)) / 2 * waveAt c.s f m n k l) := by
    have hsq : sg f * sg f = 1 := by cases f <;> norm_num [sg]
    have := Asym.pair_sum h (sg f) hsq G (waveAt c.s f m n) (fun _ _ => 0)
      (fun k l k0 k1 l0 l1 => wave_reflect h f m n ⟨k0, k1⟩ ⟨l0, l1⟩) (fun k l _ _ _ _ => by simp)
    simpa using this
  rw [e1, e2]
  unfold aSum
  rw [Finset.mul_sum]
  refine Finset.sum_congr rfl fun k hk => ?_
  rw [Finset.mem_Ico] at hk
  have key : ∀ p : Int → ℝ, (∀ l, 0 ≤ l → l < c.s.nThetaReduced → p l = pw c l * polPart (polAt c m l) f) →
      0.5 * tc * torPart (torAt c k n) f * ((∑ l ∈ Ico 0 c.s.nThetaReduced, G k l * p l) +
        sg f * ∑ l ∈ Ico 0 c.s.nThetaReduced, G (Asym.kRev c k) (lRev c l) * p l) =
      tc * ∑ l ∈ Ico 0 c.s.nThetaReduced, pw c l * ((G k l + sg f * G (Asym.kRev c k) (Asym.lRev c l)) / 2 * waveAt c.s f m n k l) := by
    intro p hp
    rw [Finset.mul_sum, Finset.mul_sum, ← Finset.sum_add_distrib, Finset.mul_sum]
    refine Finset.sum_congr rfl fun l hl => ?_
    rw [Finset.mem_Ico] at hl
    rw [hp l hl.1 hl.2, ← parts h.toGoodP m0 m1 n0 n1 hk hl f, lRev_same]
    ring
  unfold aVal
  rw [if_neg (by simp [hl])]
  cases f
  · rw [← key (fun l => (polAt c m l).sinmui) fun l l0 l1 => (pol_weights h.toGoodP m0 m1 l0 l1).2.1]
    dsimp only [fourOf, sg, torPart]; ring
  · rw [← key (fun l => (polAt c m l).cosmui) fun l l0 l1 => (pol_weights h.toGoodP m0 m1 l0 l1).1]
    dsimp only [fourOf, sg, torPart]; ring
  · rw [← key (fun l => (polAt c m l).cosmui) fun l l0 l1 => (pol_weights h.toGoodP m0 m1 l0 l1).1]
    dsimp only [fourOf, sg, torPart]; ring
  · rw [← key (fun l => (polAt c m l).sinmui) fun l l0 l1 => (pol_weights h.toGoodP m0 m1 l0 l1).2.1]
    dsimp only [fourOf, sg, torPart]; ring

/-! ### points -/

/-- part of the filtered force in one family of angular functions -/
noncomputable def partOf (c : Ctx) (faccon : Int → ℝ) (tc : ℝ) (G : Int → Int → ℝ) (f : Fam) (k l : Int) : ℝ :=
  ∑ m ∈ Ico 1 (c.s.mpol - 1), ∑ n ∈ Ico 0 (c.s.ntor + 1), tc * faccon m * coefKl c G f m n * waveAt c.s f m n k l

theorem pVal_gCon (h : GoodP c) (faccon : Int → ℝ) (tc : ℝ) (g : Int → ℝ) (jF : Int) {k l : Int} (hk : 0 ≤ k ∧ k < c.s.nZeta)
    (hl : 0 ≤ l ∧ l < c.s.nThetaReduced) (G : Int → Int → ℝ)
    (ha : ∀ m n f, 0 ≤ m → m < c.s.mpol → 0 ≤ n → n < c.s.ntor + 1 → f ∈ fams c.s.lasym → aSum c tc g jF m (fourOf f) n = tc * coefKl c G f m n) :
    pVal c faccon tc g jF k l .gCon = partOf c faccon tc G .sc k l + partOf c faccon tc G .cs k l := by
  have hsc : Fam.sc ∈ fams c.s.lasym := by unfold fams; split <;> simp
  have hcs : Fam.cs ∈ fams c.s.lasym := by unfold fams; split <;> simp
  unfold pVal partOf
  rw [← Finset.sum_add_distrib]
  refine Finset.sum_congr rfl fun m hm => ?_
  rw [Finset.mem_Ico] at hm
  unfold sVal
  rw [Finset.sum_mul, Finset.sum_mul, ← Finset.sum_add_distrib, ← Finset.sum_add_distrib, Finset.mul_sum]
  refine Finset.sum_congr rfl fun n hn => ?_
  rw [Finset.mem_Ico] at hn
  have e1 := ha m n .sc (by omega) (by omega) hn.1 hn.2 hsc
  have e2 := ha m n .cs (by omega) (by omega) hn.1 hn.2 hcs
  dsimp only [fourOf] at e1 e2
  obtain ⟨w1, w2, _⟩ := wave_tab h (m := m) (by omega) (by omega) hn.1 hn.2 hk hl
  rw [e1, e2, ← w1, ← w2]
  ring

theorem pVal_gcona (h : GoodP c) (hl : c.s.lasym = true) (faccon : Int → ℝ) (tc : ℝ) (g : Int → ℝ) (jF : Int) {k l : Int} (hk : 0 ≤ k ∧ k < c.s.nZeta)
    (hl' : 0 ≤ l ∧ l < c.s.nThetaReduced) (G : Int → Int → ℝ)
    (ha : ∀ m n f, 0 ≤ m → m < c.s.mpol → 0 ≤ n → n < c.s.ntor + 1 → aSum c tc g jF m (fourOf f) n = tc * coefKl c G f m n) :
    pVal c faccon tc g jF k l .gcona = partOf c faccon tc G .cc k l + partOf c faccon tc G .ss k l := by
  unfold pVal partOf
  rw [← Finset.sum_add_distrib]
  refine Finset.sum_congr rfl fun m hm => ?_
  rw [Finset.mem_Ico] at hm
  unfold sVal
  dsimp only
  rw [if_pos hl, Finset.sum_mul, Finset.sum_mul, ← Finset.sum_add_distrib, ← Finset.sum_add_distrib, Finset.mul_sum]
  refine Finset.sum_congr rfl fun n hn => ?_
  rw [Finset.mem_Ico] at hn
  have e1 := ha m n .cc (by omega) (by omega) hn.1 hn.2
  have e2 := ha m n .ss (by omega) (by omega) hn.1 hn.2
  dsimp only [fourOf] at e1 e2
  obtain ⟨_, _, w3, w4⟩ := wave_tab h (m := m) (by omega) (by omega) hn.1 hn.2 hk hl'
  rw [e1, e2, ← w3, ← w4]
  ring

theorem partOf_reflect (h : Asym.Full c) (faccon : Int → ℝ) (tc : ℝ) (G : Int → Int → ℝ) (f : Fam) {k l : Int} (hk : 0 ≤ k ∧ k < c.s.nZeta)
    (hl : 0 ≤ l ∧ l < c.s.nThetaEven) : partOf c faccon tc G f (Asym.kRev c k) (Asym.lRev c l) = sg f * partOf c faccon tc G f k l := by
  unfold partOf
  rw [Finset.mul_sum]
  refine Finset.sum_congr rfl fun m _ => ?_
  rw [Finset.mul_sum]
  refine Finset.sum_congr rfl fun n _ => ?_
  rw [wave_reflect h f m n hk hl]
  ring

/-- all families -/
noncomputable def whole (c : Ctx) (faccon : Int → ℝ) (tc : ℝ) (G : Int → Int → ℝ) (k l : Int) : ℝ :=
  ∑ f ∈ fams c.s.lasym, partOf c faccon tc G f k l

/-! ### one surface -/

theorem surface_sym {nfp mpol ntor ntheta nzeta mg ng : Int} (hs : Sizes.mk false nfp mpol ntor ntheta nzeta mg ng = .ok c.s)
    (faccon tcon : Int → ℝ) (g : Int → ℝ) (jF : Int) (st : (Four → Int → ℝ) × (Out → Int → ℝ)) {j k l : Int} (hk : 0 ≤ k ∧ k < c.s.nZeta)
    (hl : 0 ≤ l ∧ l < c.s.nThetaEff) :
    (surface c faccon tcon g jF st).2 .gCon (idxKl c c.r.nsMinF j k + l) = st.2 .gCon (idxKl c c.r.nsMinF j k + l) +
      if j = jF then whole c faccon (tcon (jF - c.r.nsMinF)) (fun k l => g (idxKl c c.r.nsMinF jF k + l)) k l else 0 := by
  have h := goodP_of_mk hs
  obtain ⟨h1, h2, h3⟩ := sizes_symm hs
  unfold surface
  simp only [h1, Bool.false_eq_true, if_false]
  rw [modes_eq]
  refine congrArg₂ (· + ·) rfl ((pick1 c.r.nsMinF (fun k l => pVal c faccon (tcon (jF - c.r.nsMinF)) g jF k l .gCon) (jF' := jF) hk hl h.eff).trans ?_)
  by_cases e : j = jF
  · rw [if_pos ⟨e, by omega⟩, if_pos e]
    rw [pVal_gCon h faccon _ g jF hk ⟨hl.1, by omega⟩ _ (fun m n f m0 m1 n0 n1 hf => aSum_sym hs _ g jF m0 m1 n0 n1 f hf)]
    unfold whole
    rw [h1]
    simp [fams]
  · rw [if_neg (fun hh => e hh.1), if_neg e]

/-- the extension of a surface as the two passes of `symrzl` -/
theorem extend_eq (base : Int) (ga g : Int → ℝ) :
    extend c base ga g = Asym.surfaceOf (C := Unit) c
      (fun jl jr g _ i => if i = jl then -g () jr + ga (jr - base) else g () i)
      (fun jl g _ i => if i = jl then g () i + ga (jl - base) else g () i) base (fun _ => g) () := by
  unfold extend Asym.surfaceOf
  dsimp only
  have e1 : ∀ (k : Int) (t : Int → ℝ), forRange c.s.nThetaReduced c.s.nThetaEven (fun l g =>
        upd g (base + k * c.s.nThetaEff + l) (-g (base + (Asym.kRev c k * c.s.nThetaEff + (c.s.nThetaEven - l))) +
          ga (Asym.kRev c k * c.s.nThetaEff + (c.s.nThetaEven - l)))) t =
      forRange c.s.nThetaReduced c.s.nThetaEven (fun l (g : Unit → Int → ℝ) _ i =>
        if i = base + k * c.s.nThetaEff + l then -g () (base + Asym.kRev c k * c.s.nThetaEff + (c.s.nThetaEven - l)) +
          ga (base + Asym.kRev c k * c.s.nThetaEff + (c.s.nThetaEven - l) - base) else g () i) (fun _ => t) () := by
    intro k t
    symm
    refine forRange_map _ _ (fun s : Unit → Int → ℝ => s ()) (fun l s => ?_) (fun _ => t)
    funext i
    unfold upd
    rw [show base + Asym.kRev c k * c.s.nThetaEff + (c.s.nThetaEven - l) - base = Asym.kRev c k * c.s.nThetaEff + (c.s.nThetaEven - l) by ring,
      add_assoc base (Asym.kRev c k * c.s.nThetaEff)]
  have e2 : ∀ (k : Int) (t : Int → ℝ), forRange 0 c.s.nThetaReduced (fun l g =>
        upd g (base + (k * c.s.nThetaEff + l)) (g (base + (k * c.s.nThetaEff + l)) + ga (k * c.s.nThetaEff + l))) t =
      forRange 0 c.s.nThetaReduced (fun l (g : Unit → Int → ℝ) _ i =>
        if i = base + k * c.s.nThetaEff + l then g () i + ga (base + k * c.s.nThetaEff + l - base) else g () i) (fun _ => t) () := by
    intro k t
    symm
    refine forRange_map _ _ (fun s : Unit → Int → ℝ => s ()) (fun l s => ?_) (fun _ => t)
    funext i
    unfold upd
    rw [show base + k * c.s.nThetaEff + l - base = k * c.s.nThetaEff + l by ring, add_assoc base]
    by_cases e : i = base + (k * c.s.nThetaEff + l)
    · rw [if_pos e, if_pos e, e]
    · rw [if_neg e, if_neg e]
  simp only [e1, e2]
  set X := forRange 0 c.s.nZeta (fun k g => forRange c.s.nThetaReduced c.s.nThetaEven (fun l (g : Unit → Int → ℝ) _ i =>
        if i = base + k * c.s.nThetaEff + l then -g () (base + Asym.kRev c k * c.s.nThetaEff + (c.s.nThetaEven - l)) +
          ga (base + Asym.kRev c k * c.s.nThetaEff + (c.s.nThetaEven - l) - base) else g () i) g) (fun _ => g) with hX
  have x1 : forRange 0 c.s.nZeta (fun k g => forRange c.s.nThetaReduced c.s.nThetaEven (fun l (g : Unit → Int → ℝ) _ i =>
        if i = base + k * c.s.nThetaEff + l then -g () (base + Asym.kRev c k * c.s.nThetaEff + (c.s.nThetaEven - l)) +
          ga (base + Asym.kRev c k * c.s.nThetaEff + (c.s.nThetaEven - l) - base) else g () i) (fun _ => g) ()) g = X () := by
    rw [hX]
    symm
    exact forRange_map _ _ (fun s : Unit → Int → ℝ => s ()) (fun k s => rfl) (fun _ => g)
  rw [x1]
  symm
  exact forRange_map _ _ (fun s : Unit → Int → ℝ => s ()) (fun k s => rfl) X

theorem surface_asym {nfp mpol ntor ntheta nzeta mg ng : Int} (hs : Sizes.mk true nfp mpol ntor ntheta nzeta mg ng = .ok c.s)
    (faccon tcon : Int → ℝ) (g : Int → ℝ) (jF : Int) (st : (Four → Int → ℝ) × (Out → Int → ℝ))
    (hz : ∀ k l, 0 ≤ k → k < c.s.nZeta → 0 ≤ l → l < c.s.nThetaEff → st.2 .gCon (idxKl c c.r.nsMinF jF k + l) = 0)
    {j k l : Int} (hk : 0 ≤ k ∧ k < c.s.nZeta) (hl : 0 ≤ l ∧ l < c.s.nThetaEff) :
    (surface c faccon tcon g jF st).2 .gCon (idxKl c c.r.nsMinF j k + l) = st.2 .gCon (idxKl c c.r.nsMinF j k + l) +
      if j = jF then whole c faccon (tcon (jF - c.r.nsMinF)) (fun k l => g (idxKl c c.r.nsMinF jF k + l)) k l else 0 := by
  have h := Asym.full_of_mk hs
  have hla : c.s.lasym = true := ((Sizes.C07_sizes true nfp mpol ntor ntheta nzeta mg ng).2 c.s hs).1.1
  have hred := h.red
  have hev := h.even
  have hfu := h.full
  set o : Out → Int → ℝ := fun a => match a with
    | .gCon => st.2 .gCon
    | .gcona => fillFirst c.s.nZnT (st.2 .gcona) with ho
  set tc := tcon (jF - c.r.nsMinF) with htc
  set G : Int → Int → ℝ := fun k l => g (idxKl c c.r.nsMinF jF k + l) with hG
  set s1 := (forRange 1 (c.s.mpol - 1) (fun m st => modeStep c faccon tc g jF m st) (st.1, o)).2 with hs1
  have ha : ∀ m n f, 0 ≤ m → m < c.s.mpol → 0 ≤ n → n < c.s.ntor + 1 → aSum c tc g jF m (fourOf f) n = tc * coefKl c G f m n :=
    fun m n f m0 m1 n0 n1 => aSum_asym hs tc g jF m0 m1 n0 n1 f
  have c1 : ∀ {j k l : Int}, 0 ≤ k → k < c.s.nZeta → 0 ≤ l → l < c.s.nThetaEff → s1 .gCon (idxKl c c.r.nsMinF j k + l) =
      st.2 .gCon (idxKl c c.r.nsMinF j k + l) + if j = jF ∧ l < c.s.nThetaReduced then pVal c faccon tc g jF k l .gCon else 0 := by
    intro j k l k0 k1 l0 l1
    rw [hs1, modes_eq]
    exact congrArg₂ (· + ·) rfl (pick1 c.r.nsMinF (fun k l => pVal c faccon tc g jF k l .gCon) (jF' := jF) ⟨k0, k1⟩ ⟨l0, l1⟩ h.eff)
  have c2 : ∀ {k l : Int}, 0 ≤ k → k < c.s.nZeta → 0 ≤ l → l < c.s.nThetaReduced → s1 .gcona (k * c.s.nThetaEff + l) =
      pVal c faccon tc g jF k l .gcona := by
    intro k l k0 k1 l0 l1
    rw [hs1, modes_eq]
    have hx := pick1 (c := c) 0 (fun k l => pVal c faccon tc g jF k l .gcona) (jF := 0) (jF' := 0) ⟨k0, k1⟩ ⟨l0, by omega⟩ h.eff
    unfold idxKl at hx
    simp only [sub_self, zero_mul, zero_add, true_and, if_pos l1] at hx
    refine (congrArg₂ (· + ·) rfl hx).trans ?_
    have : o .gcona (k * c.s.nThetaEff + l) = 0 := by
      rw [ho]
      dsimp only
      unfold fillFirst
      rw [if_pos]
      rw [h.znt]
      have p1 : 0 ≤ k * c.s.nThetaEff := mul_nonneg k0 (by omega)
      have p2 : (k + 1) * c.s.nThetaEff ≤ c.s.nZeta * c.s.nThetaEff := mul_le_mul_of_nonneg_right (by omega) (by omega)
      rw [add_mul, one_mul] at p2
      omega
    show o .gcona (k * c.s.nThetaEff + l) + _ = _
    rw [this, zero_add]
  have hgoal : ∀ i, (surface c faccon tcon g jF st).2 .gCon i =
      extend c ((jF - c.r.nsMinF) * c.s.nZnT) (s1 .gcona) (s1 .gCon) i := by
    intro i
    unfold surface
    simp only [hla, if_true]
    rfl
  rw [hgoal, extend_eq]
  have hsurf := Asym.surfaceOf_eq (C := Unit) (sel := fun _ => True) (sgn := fun _ => -1)
    (ga := fun _ i => s1 .gcona (i - (jF - c.r.nsMinF) * c.s.nZnT))
    (ext := fun jl jr g _ i => if i = jl then -g () jr + s1 .gcona (jr - (jF - c.r.nsMinF) * c.s.nZnT) else g () i)
    (comb := fun jl g _ i => if i = jl then g () i + s1 .gcona (jl - (jF - c.r.nsMinF) * c.s.nZnT) else g () i) h
    (by
      intro jl jr g a i _
      by_cases e : i = jl
      · simp only [e, if_true, and_self]; ring
      · simp only [e, if_false, and_false])
    (by
      intro jl g a i
      by_cases e : i = jl
      · simp [e]
      · simp [e]) c.r.nsMinF jF (fun _ => s1 .gCon)
  obtain ⟨t1, t2, _⟩ := hsurf
  by_cases e : j = jF
  · subst e
    have hc : idxKl c c.r.nsMinF j k + l = Asym.cell c c.r.nsMinF j k l := (Asym.cell_eq h _ _ _ _).symm
    rw [if_pos rfl, hz k l hk.1 hk.2 hl.1 hl.2, zero_add, hc, t1 () k l trivial hk.1 hk.2 hl.1 (by omega)]
    rw [Asym.target_eq h (σ := -1) (by norm_num) hk ⟨hl.1, by omega⟩ _ () rfl _ _
      (fun k l => partOf c faccon tc G .sc k l + partOf c faccon tc G .cs k l)
      (fun k l => partOf c faccon tc G .cc k l + partOf c faccon tc G .ss k l)]
    · unfold whole
      rw [hla]
      have : fams true = {.sc, .cs, .cc, .ss} := rfl
      rw [this, Finset.sum_insert (by decide), Finset.sum_insert (by decide), Finset.sum_insert (by decide), Finset.sum_singleton]
      ring
    · intro k l k0 k1 l0 l1
      rw [Asym.cell_eq h]
      refine ⟨?_, ?_⟩
      · rw [c1 k0 k1 l0 (by omega), hz k l k0 k1 l0 (by omega), zero_add, if_pos ⟨rfl, l1⟩]
        exact pVal_gCon h.toGoodP faccon tc g j ⟨k0, k1⟩ ⟨l0, l1⟩ G (fun m n f m0 m1 n0 n1 _ => ha m n f m0 m1 n0 n1)
      · rw [← Asym.cell_eq h]
        unfold Asym.cell
        rw [show (j - c.r.nsMinF) * c.s.nZnT + k * c.s.nThetaEff + l - (j - c.r.nsMinF) * c.s.nZnT = k * c.s.nThetaEff + l by ring, c2 k0 k1 l0 l1]
        exact pVal_gcona h.toGoodP hla faccon tc g j ⟨k0, k1⟩ ⟨l0, l1⟩ G ha
    · intro k l k0 k1 l0 l1
      rw [partOf_reflect h _ _ _ _ ⟨k0, k1⟩ ⟨l0, l1⟩, partOf_reflect h _ _ _ _ ⟨k0, k1⟩ ⟨l0, l1⟩]
      dsimp only [sg]; ring
    · intro k l k0 k1 l0 l1
      rw [partOf_reflect h _ _ _ _ ⟨k0, k1⟩ ⟨l0, l1⟩, partOf_reflect h _ _ _ _ ⟨k0, k1⟩ ⟨l0, l1⟩]
      dsimp only [sg]; ring
  · rw [if_neg e, add_zero, t2, c1 hk.1 hk.2 hl.1 hl.2, if_neg (fun hh => e hh.1), add_zero]
    intro k' l' k0 k1 l0 l1
    rw [Asym.cell_eq h]
    intro hh
    exact e (idxKl_inj hk.1 hk.2 k0 k1 hl.1 hl.2 l0 (by omega) hh).1

/-! ### all surfaces -/

theorem deAlias_kl {lasym : Bool} {nfp mpol ntor ntheta nzeta mg ng : Int} (hs : Sizes.mk lasym nfp mpol ntor ntheta nzeta mg ng = .ok c.s)
    (faccon tcon : Int → ℝ) (g : Int → ℝ) (st : (Four → Int → ℝ) × (Out → Int → ℝ)) {j k l : Int}
    (hj : 0 ≤ c.r.nsMinF ∧ c.r.nsMinF ≤ j ∧ j < c.r.nsMaxF) (hk : 0 ≤ k ∧ k < c.s.nZeta) (hl : 0 ≤ l ∧ l < c.s.nThetaEff)
    (hznt : c.s.nZnT = c.s.nZeta * c.s.nThetaEff) :
    deAlias c faccon tcon g st (idxKl c c.r.nsMinF j k + l) =
      if 1 ≤ j then whole c faccon (tcon (j - c.r.nsMinF)) (fun k l => g (idxKl c c.r.nsMinF j k + l)) k l else 0 := by
  unfold deAlias
  set o : Out → Int → ℝ := fun a => match a with
    | .gCon => fillFirst ((c.r.nsMaxF - c.r.nsMinF) * c.s.nZnT) (st.2 .gCon)
    | .gcona => st.2 .gcona with ho
  have z0 : ∀ j k l, c.r.nsMinF ≤ j → j < c.r.nsMaxF → 0 ≤ k → k < c.s.nZeta → 0 ≤ l → l < c.s.nThetaEff →
      o .gCon (idxKl c c.r.nsMinF j k + l) = 0 := by
    intro j k l j0 j1 k0 k1 l0 l1
    rw [ho]
    dsimp only
    unfold fillFirst
    refine if_pos ?_
    unfold idxKl
    rw [hznt]
    have a1 : 0 ≤ (j - c.r.nsMinF) * c.s.nZeta := mul_nonneg (by omega) (by omega)
    have a2 : 0 ≤ ((j - c.r.nsMinF) * c.s.nZeta + k) * c.s.nThetaEff := mul_nonneg (by omega) (by omega)
    have a3 : (j - c.r.nsMinF + 1) * c.s.nZeta ≤ (c.r.nsMaxF - c.r.nsMinF) * c.s.nZeta := mul_le_mul_of_nonneg_right (by omega) (by omega)
    rw [add_mul, one_mul] at a3
    have a4 : ((j - c.r.nsMinF) * c.s.nZeta + k + 1) * c.s.nThetaEff ≤ (c.r.nsMaxF - c.r.nsMinF) * c.s.nZeta * c.s.nThetaEff :=
      mul_le_mul_of_nonneg_right (by omega) (by omega)
    rw [add_mul _ (1:Int), one_mul] at a4
    rw [← mul_assoc]
    omega
  have hf : jFirst c = if c.r.nsMinF = 0 then 1 else c.r.nsMinF := by
    unfold jFirst
    split <;> omega
  have hsurf : ∀ jF (st : (Four → Int → ℝ) × (Out → Int → ℝ)),
      (∀ k l, 0 ≤ k → k < c.s.nZeta → 0 ≤ l → l < c.s.nThetaEff → st.2 .gCon (idxKl c c.r.nsMinF jF k + l) = 0) →
      ∀ {j k l : Int}, 0 ≤ k → k < c.s.nZeta → 0 ≤ l → l < c.s.nThetaEff →
      (surface c faccon tcon g jF st).2 .gCon (idxKl c c.r.nsMinF j k + l) = st.2 .gCon (idxKl c c.r.nsMinF j k + l) +
        if j = jF then whole c faccon (tcon (jF - c.r.nsMinF)) (fun k l => g (idxKl c c.r.nsMinF jF k + l)) k l else 0 := by
    intro jF st hz j k l k0 k1 l0 l1
    cases lasym
    · exact surface_sym hs faccon tcon g jF st ⟨k0, k1⟩ ⟨l0, l1⟩
    · exact surface_asym hs faccon tcon g jF st hz ⟨k0, k1⟩ ⟨l0, l1⟩
  rcases le_total c.r.nsMaxF (jFirst c) with hle | hle
  · rw [forRange_empty hle]
    refine (z0 j k l hj.2.1 hj.2.2 hk.1 hk.2 hl.1 hl.2).trans (if_neg ?_).symm
    rw [hf] at hle
    split at hle <;> omega
  have inv := forRange_inv hle (fun jF st => surface c faccon tcon g jF st) (st.1, o)
    (fun J st => ∀ j k l, c.r.nsMinF ≤ j → j < c.r.nsMaxF → 0 ≤ k → k < c.s.nZeta → 0 ≤ l → l < c.s.nThetaEff →
      st.2 .gCon (idxKl c c.r.nsMinF j k + l) = if jFirst c ≤ j ∧ j < J then
        whole c faccon (tcon (j - c.r.nsMinF)) (fun k l => g (idxKl c c.r.nsMinF j k + l)) k l else 0)
    (by
      intro j k l j0 j1 k0 k1 l0 l1
      rw [if_neg (by omega)]
      exact z0 j k l j0 j1 k0 k1 l0 l1)
    (by
      intro J st J0 J1 ih j k l j0 j1 k0 k1 l0 l1
      have hJ : c.r.nsMinF ≤ J := by rw [hf] at J0; split at J0 <;> omega
      rw [hsurf J st (fun k l k0 k1 l0 l1 => by rw [ih J k l hJ J1 k0 k1 l0 l1, if_neg (by omega)]) k0 k1 l0 l1,
        ih j k l j0 j1 k0 k1 l0 l1]
      by_cases e : j = J
      · subst e
        rw [if_neg (by omega), if_pos rfl, if_pos (by omega), zero_add]
      · rw [if_neg e, add_zero]
        by_cases e' : jFirst c ≤ j ∧ j < J
        · rw [if_pos e', if_pos (by omega)]
        · rw [if_neg e', if_neg (by omega)])
  refine (inv j k l hj.2.1 hj.2.2 hk.1 hk.2 hl.1 hl.2).trans ?_
  have : (jFirst c ≤ j ∧ j < c.r.nsMaxF) ↔ 1 ≤ j := by
    rw [hf]
    split <;> omega
  simp only [this]

end Verif.Constraint
