import Verif.ParFor.Model
import Verif.Output.NyquistProps
import Verif.Makegrid.Props

/-! # Effect of one iteration of the worksharing loops -/
namespace Verif.ParFor
open Verif Verif.Output Verif.Fourier

section
variable {L P V : Type} [DecidableEq L] [DecidableEq P]

/-- the operation assigns the private location `r` -/
def Op.sets (r : P) : Op L P V → Prop
  | .load b _ => b = r
  | .set b _ => b = r
  | .store _ _ => False

theorem run_keep_reg {ops : List (Op L P V)} {r : P} (h : ∀ o ∈ ops, ¬ o.sets r) (m : (P → V) × (L → V)) : (run ops m).1 r = m.1 r := by
  induction ops generalizing m with
  | nil => rfl
  | cons o ops ih =>
    have h1 := ih (fun o' ho' => h o' (List.mem_cons_of_mem _ ho')) (o.exec m)
    have h2 := h o List.mem_cons_self
    show (run ops (o.exec m)).1 r = _
    rw [h1]
    cases o with
    | load b a => have : r ≠ b := fun e => h2 e.symm
                  simp [Op.exec, put, this]
    | set b f => have : r ≠ b := fun e => h2 e.symm
                 simp [Op.exec, put, this]
    | store b r => rfl

theorem run_nil (m : (P → V) × (L → V)) : run ([] : List (Op L P V)) m = m := rfl

theorem run_cons (o : Op L P V) (os : List (Op L P V)) (m : (P → V) × (L → V)) : run (o :: os) m = run os (o.exec m) := rfl

theorem run_flatMap_irange (lo hi : Int) (f : Int → List (Op L P V)) (m : (P → V) × (L → V)) :
    run ((irange lo hi).flatMap f) m = forRange lo hi (fun j m => run (f j) m) m := by
  unfold forRange
  induction irange lo hi generalizing m with
  | nil => rfl
  | cons x xs ih => rw [List.flatMap_cons, run_append, List.foldl_cons]; exact ih _

/-- a block of a loop that establishes `Q`, which the other blocks keep -/
theorem run_flatMap_est {α : Type} [DecidableEq α] {xs : List α} {f : α → List (Op L P V)} {x : α} (hx : x ∈ xs)
    (G Q : (P → V) × (L → V) → Prop) (hG : ∀ y ∈ xs, ∀ m, G m → G (run (f y) m)) (hest : ∀ m, G m → Q (run (f x) m))
    (hpres : ∀ y ∈ xs, y ≠ x → ∀ m, G m → Q m → Q (run (f y) m)) {m : (P → V) × (L → V)} (h : G m) : Q (run (xs.flatMap f) m) := by
  have pres : ∀ ys : List α, (∀ y ∈ ys, y ∈ xs) → ∀ m, G m → Q m → Q (run (ys.flatMap f) m) := by
    intro ys
    induction ys with
    | nil => intro _ m _ hq; exact hq
    | cons y ys ih =>
      intro hys m hg hq
      rw [List.flatMap_cons, run_append]
      have hy := hys y List.mem_cons_self
      refine ih (fun z hz => hys z (List.mem_cons_of_mem _ hz)) _ (hG y hy m hg) ?_
      by_cases e : y = x
      · subst e; exact hest m hg
      · exact hpres y hy e m hg hq
  have main : ∀ ys : List α, (∀ y ∈ ys, y ∈ xs) → x ∈ ys → ∀ m, G m → Q (run (ys.flatMap f) m) := by
    intro ys
    induction ys with
    | nil => intro _ h; cases h
    | cons y ys ih =>
      intro hys hx m hg
      rw [List.flatMap_cons, run_append]
      have hy := hys y List.mem_cons_self
      have hys' := fun z hz => hys z (List.mem_cons_of_mem _ hz)
      by_cases e : y = x
      · subst e; exact pres ys hys' _ (hG y hy m hg) (hest m hg)
      · rcases List.mem_cons.mp hx with h | h
        · exact absurd h.symm e
        · exact ih hys' h _ (hG y hy m hg)
  exact main xs (fun _ h => h) hx m h

/-- operations without a `store` keep the shared memory -/
theorem run_quiet {ops : List (Op L P V)} (h : ∀ o ∈ ops, ∀ a, ¬ o.writes a) (m : (P → V) × (L → V)) : (run ops m).2 = m.2 := by
  funext a; exact run_keep (fun o ho => h o ho a) m

end

/-! ## `|B|` -/

theorem absBody_shared (s : Sizes.Sizes) (jH : Int) (p : BReg → ℝ) (σ : BLoc → ℝ) :
    (run (absBody s jH) (p, σ)).2 = fun a => match a with
      | .magnetic_pressure i => if 0 ≤ i - jH * s.nZnT ∧ i - jH * s.nZnT < s.nZnT
          then Real.sqrt (2 * |σ (.total_pressure i) - σ (.presH jH)|) else σ (.magnetic_pressure i)
      | a => σ a := by
  have hkeep : ∀ kl (m : (BReg → ℝ) × (BLoc → ℝ)), (∀ i, m.2 (.total_pressure i) = σ (.total_pressure i)) ∧ (∀ j, m.2 (.presH j) = σ (.presH j)) →
      (∀ i, (run [.load .total_pressure (.total_pressure (jH * s.nZnT + kl)), .load .presH (.presH jH),
        .set .value (fun r => Real.sqrt (2 * |r .total_pressure - r .presH|)), .store (.magnetic_pressure (jH * s.nZnT + kl)) .value] m).2 i =
        if i = .magnetic_pressure (jH * s.nZnT + kl) then Real.sqrt (2 * |σ (.total_pressure (jH * s.nZnT + kl)) - σ (.presH jH)|) else m.2 i) := by
    intro kl m ⟨h1, h2⟩ i
    simp [run, Op.exec, put, h1, h2]
  funext a
  match a with
  | .total_pressure i =>
    refine run_keep (fun o ho => ?_) _
    simp only [absBody, List.mem_flatMap] at ho
    obtain ⟨kl, _, ho⟩ := ho
    fin_cases ho <;> simp [Op.writes]
  | .presH i =>
    refine run_keep (fun o ho => ?_) _
    simp only [absBody, List.mem_flatMap] at ho
    obtain ⟨kl, _, ho⟩ := ho
    fin_cases ho <;> simp [Op.writes]
  | .magnetic_pressure i =>
    dsimp only
    split_ifs with h
    · obtain ⟨kl, rfl⟩ : ∃ kl, i = jH * s.nZnT + kl := ⟨i - jH * s.nZnT, by omega⟩
      obtain ⟨k0, k1⟩ : 0 ≤ kl ∧ kl < s.nZnT := by omega
      unfold absBody
      refine run_flatMap_est (x := kl) (mem_irange.mpr ⟨k0, k1⟩)
        (fun m : (BReg → ℝ) × (BLoc → ℝ) => (∀ i, m.2 (.total_pressure i) = σ (.total_pressure i)) ∧ (∀ j, m.2 (.presH j) = σ (.presH j)))
        (fun m : (BReg → ℝ) × (BLoc → ℝ) => m.2 (.magnetic_pressure (jH * s.nZnT + kl)) = Real.sqrt (2 * |σ (.total_pressure (jH * s.nZnT + kl)) - σ (.presH jH)|)) ?_ ?_ ?_ ?_
      · rintro y _ m hm
        exact ⟨fun i => by rw [hkeep y m hm]; simp [hm.1], fun i => by rw [hkeep y m hm]; simp [hm.2]⟩
      · intro m hm; rw [hkeep kl m hm, if_pos rfl]
      · intro y _ hy m hm hq
        rw [hkeep y m hm, if_neg, hq]
        simp only [BLoc.magnetic_pressure.injEq]; omega
      · exact ⟨fun _ => rfl, fun _ => rfl⟩
    · refine run_keep (fun o ho hw => h ?_) _
      simp only [absBody, List.mem_flatMap, mem_irange] at ho
      obtain ⟨kl, hk, ho⟩ := ho
      fin_cases ho <;> simp [Op.writes] at hw
      omega

/-! ## Nyquist transforms -/

section
variable (s : Sizes.Sizes)

theorem mem_parities {a : Bool} : a ∈ parities s ↔ (a = true → s.lasym = true) := by
  unfold parities
  cases s.lasym <;> cases a <;> simp

/-- value that enters the sums -/
theorem nyqPart_refl (q : Field) (a : Bool) (f : Int → ℝ) (j k l : Int) :
    nyqPart s (reflSign q a) f j k l =
      if s.lasym then 1 / 2 * (f ((j * s.nZeta + k) * s.nThetaEff + l) + reflSign q a *
        f ((j * s.nZeta + (s.nZeta - k).tmod s.nZeta) * s.nThetaEff + (s.nThetaEff - l).tmod s.nThetaEff))
      else f ((j * s.nZeta + k) * s.nThetaEff + l) := rfl

theorem pointOps_quiet (j m k l : Int) (q : Field) : ∀ o ∈ pointOps s j m k l q, ∀ a, ¬ o.writes a := by
  intro o ho a
  simp only [pointOps, List.mem_append, List.mem_flatMap] at ho
  rcases ho with (ho | ho) | ⟨b, _, ho⟩
  · fin_cases ho; simp [Op.writes]
  · split_ifs at ho
    · fin_cases ho; simp [Op.writes]
    · cases ho
  · fin_cases ho <;> simp [Op.writes]

/-- table of the kind of sum -/
noncomputable def polTab (sine : Bool) (ml : Int) : ℝ := if sine then (polTables fastPoloidal s ml).sinmui else cosmuiNyq s ml

theorem pointOps_part (j m k l : Int) (q : Field) (mem : (NReg → ℝ) × (NLoc → ℝ)) (sine a : Bool) (ha : a ∈ parities s) :
    (run (pointOps s j m k l q) mem).1 (.part q sine a) =
      mem.1 (.part q sine a) + polTab s sine (m * s.nThetaReduced + l) * nyqPart s (reflSign q a) (fun i => mem.2 (.field q i)) j k l := by
  rw [nyqPart_refl]
  rw [mem_parities] at ha
  unfold pointOps parities polTab
  cases hl : s.lasym
  · have : a = false := by cases a <;> simp_all
    subst this
    cases sine <;> simp [run, Op.exec, put]
  · cases sine <;> cases a <;> simp [run, Op.exec, put]

theorem poloidalOps_quiet (j m k : Int) (q : Field) : ∀ o ∈ poloidalOps s j m k q, ∀ a, ¬ o.writes a := by
  intro o ho a
  simp only [poloidalOps, List.mem_append, List.mem_flatMap] at ho
  rcases ho with (⟨b, _, ho⟩ | ⟨l, _, ho⟩) | ⟨b, _, ho⟩
  · fin_cases ho <;> simp [Op.writes]
  · exact pointOps_quiet s j m k l q o ho a
  · fin_cases ho <;> simp [Op.writes]

theorem poloidalOps_work (j m k : Int) (q : Field) (mem : (NReg → ℝ) × (NLoc → ℝ)) (sine a : Bool) (ha : a ∈ parities s) :
    (run (poloidalOps s j m k q) mem).1 (.work q sine a (m * s.nZeta + k)) =
      forRange 0 s.nThetaReduced (fun l x => x + polTab s sine (m * s.nThetaReduced + l) *
        nyqPart s (reflSign q a) (fun i => mem.2 (.field q i)) j k l) 0 := by
  unfold poloidalOps
  rw [run_append, run_append]
  -- zero
  have h0 : ∀ (mem : (NReg → ℝ) × (NLoc → ℝ)),
      (run ((parities s).flatMap fun a => [.set (.part q false a) (fun _ => 0), .set (.part q true a) (fun _ => 0)]) mem).1 (.part q sine a) = 0 ∧
      (run ((parities s).flatMap fun a => [.set (.part q false a) (fun _ => 0), .set (.part q true a) (fun _ => 0)]) mem).2 = mem.2 := by
    intro mem
    rw [mem_parities] at ha
    unfold parities
    cases hl : s.lasym
    · have : a = false := by cases a <;> simp_all
      subst this
      cases sine <;> simp [run, Op.exec, put]
    · cases sine <;> cases a <;> simp [run, Op.exec, put]
  have h2 : ∀ (mem : (NReg → ℝ) × (NLoc → ℝ)),
      (run ((parities s).flatMap fun a => [.set (.work q false a (m * s.nZeta + k)) (fun r => r (.part q false a)),
        .set (.work q true a (m * s.nZeta + k)) (fun r => r (.part q true a))]) mem).1 (.work q sine a (m * s.nZeta + k)) = mem.1 (.part q sine a) := by
    intro mem
    rw [mem_parities] at ha
    unfold parities
    cases hl : s.lasym
    · have : a = false := by cases a <;> simp_all
      subst this
      cases sine <;> simp [run, Op.exec, put]
    · cases sine <;> cases a <;> simp [run, Op.exec, put]
  rw [h2, run_flatMap_irange]
  obtain ⟨z1, z2⟩ := h0 mem
  generalize run ((parities s).flatMap fun a => [Op.set (.part q false a) (fun _ => 0), .set (.part q true a) (fun _ => 0)]) mem = m1 at z1 z2
  -- the loop over l, on the pair of accumulator and shared memory
  have := forRange_map (lo := 0) (hi := s.nThetaReduced) (fun l mm => run (pointOps s j m k l q) mm)
    (fun l (x : ℝ × (NLoc → ℝ)) => (x.1 + polTab s sine (m * s.nThetaReduced + l) * nyqPart s (reflSign q a) (fun i => x.2 (.field q i)) j k l, x.2))
    (fun mm => (mm.1 (.part q sine a), mm.2)) (fun l mm => by
      simp only
      rw [pointOps_part s j m k l q mm sine a ha, run_quiet (pointOps_quiet s j m k l q)]) m1
  have e1 := congrArg Prod.fst this
  dsimp only at e1
  rw [e1, z1, z2]
  have := forRange_map (lo := 0) (hi := s.nThetaReduced)
    (fun l (x : ℝ) => x + polTab s sine (m * s.nThetaReduced + l) * nyqPart s (reflSign q a) (fun i => mem.2 (.field q i)) j k l)
    (fun l (x : ℝ × (NLoc → ℝ)) => (x.1 + polTab s sine (m * s.nThetaReduced + l) * nyqPart s (reflSign q a) (fun i => x.2 (.field q i)) j k l, x.2))
    (fun x => (x, mem.2)) (fun l x => rfl) 0
  rw [← this]

theorem poloidalOps_sets (j m k : Int) (q q' : Field) (sine a : Bool) (i : Int) (h : ¬ (q' = q ∧ i = m * s.nZeta + k)) :
    ∀ o ∈ poloidalOps s j m k q, ¬ o.sets (.work q' sine a i) := by
  intro o ho
  simp only [poloidalOps, List.mem_append, List.mem_flatMap] at ho
  rcases ho with (⟨b, _, ho⟩ | ⟨l, _, ho⟩) | ⟨b, _, ho⟩
  · fin_cases ho <;> simp [Op.sets]
  · simp only [pointOps, List.mem_append, List.mem_flatMap] at ho
    rcases ho with (ho | ho) | ⟨b, _, ho⟩
    · fin_cases ho; simp [Op.sets]
    · split_ifs at ho
      · fin_cases ho; simp [Op.sets]
      · cases ho
    · fin_cases ho <;> simp [Op.sets]
  · fin_cases ho <;> (simp only [Op.sets, NReg.work.injEq]; rintro ⟨rfl, _, _, rfl⟩; exact h ⟨rfl, rfl⟩)

theorem phase1_quiet (qs : List Field) (j : Int) : ∀ o ∈ phase1 s qs j, ∀ a, ¬ o.writes a := by
  intro o ho a
  simp only [phase1, List.mem_flatMap] at ho
  obtain ⟨m, _, k, _, q, _, ho⟩ := ho
  exact poloidalOps_quiet s j m k q o ho a

/-- work arrays after the poloidal sums -/
theorem phase1_work (qs : List Field) (j m k : Int) (m0 : 0 ≤ m) (m1 : m < s.mnyq + 1) (k0 : 0 ≤ k) (k1 : k < s.nZeta) (q : Field) (hq : q ∈ qs)
    (sine a : Bool) (ha : a ∈ parities s) (mem : (NReg → ℝ) × (NLoc → ℝ)) :
    (run (phase1 s qs j) mem).1 (.work q sine a (m * s.nZeta + k)) =
      forRange 0 s.nThetaReduced (fun l x => x + polTab s sine (m * s.nThetaReduced + l) *
        nyqPart s (reflSign q a) (fun i => mem.2 (.field q i)) j k l) 0 := by
  unfold phase1
  have G (ops : List (Op NLoc NReg ℝ)) (h : ∀ o ∈ ops, ∀ a, ¬ o.writes a) (mm : (NReg → ℝ) × (NLoc → ℝ)) (e : mm.2 = mem.2) : (run ops mm).2 = mem.2 := by
    rw [run_quiet h, e]
  obtain ⟨v, hv⟩ : ∃ v, v = forRange 0 s.nThetaReduced (fun l x => x + polTab s sine (m * s.nThetaReduced + l) *
        nyqPart s (reflSign q a) (fun i => mem.2 (.field q i)) j k l) 0 := ⟨_, rfl⟩
  rw [← hv]
  refine run_flatMap_est (x := m) (mem_irange.mpr ⟨m0, m1⟩) (fun mm => mm.2 = mem.2)
    (fun mm => mm.1 (.work q sine a (m * s.nZeta + k)) = v) ?_ ?_ ?_ rfl
  · intro m' _ mm e
    refine G _ ?_ mm e
    intro o ho b
    simp only [List.mem_flatMap] at ho
    obtain ⟨k', _, q', _, ho⟩ := ho
    exact poloidalOps_quiet s j m' k' q' o ho b
  · intro mm e
    refine run_flatMap_est (x := k) (mem_irange.mpr ⟨k0, k1⟩) (fun mm => mm.2 = mem.2)
      (fun mm => mm.1 (.work q sine a (m * s.nZeta + k)) = v) ?_ ?_ ?_ e
    · intro k' _ mm e
      refine G _ ?_ mm e
      intro o ho b
      simp only [List.mem_flatMap] at ho
      obtain ⟨q', _, ho⟩ := ho
      exact poloidalOps_quiet s j m k' q' o ho b
    · intro mm e
      refine run_flatMap_est (x := q) hq (fun mm => mm.2 = mem.2)
        (fun mm => mm.1 (.work q sine a (m * s.nZeta + k)) = v) ?_ ?_ ?_ e
      · intro q' _ mm e; exact G _ (poloidalOps_quiet s j m k q') mm e
      · intro mm e; rw [hv, poloidalOps_work s j m k q mm sine a ha, e]
      · intro q' _ hne mm _ hQ
        rw [run_keep_reg (poloidalOps_sets s j m k q' q sine a _ (fun h => hne h.1.symm))]; exact hQ
    · intro k' hk' hne mm _ hQ
      rw [run_keep_reg]; · exact hQ
      intro o ho
      simp only [List.mem_flatMap] at ho
      obtain ⟨q', _, ho⟩ := ho
      exact poloidalOps_sets s j m k' q' q sine a _ (fun h => hne (by omega)) o ho
  · intro m' hm' hne mm _ hQ
    rw [run_keep_reg]; · exact hQ
    intro o ho
    simp only [List.mem_flatMap, mem_irange] at ho
    obtain ⟨k', hk', q', _, ho⟩ := ho
    exact poloidalOps_sets s j m' k' q' q sine a _ (fun h => hne (Verif.flat_inj k0 k1 hk'.1 hk'.2 h.2).1.symm) o ho

/-- coefficient from the work arrays -/
noncomputable def coeff (xm xn : Int → Int) (q : Field) (a : Bool) (mn : Int) (w : Bool → Int → ℝ) : ℝ :=
  if (q = .bsubs) = (a = true) then nyqCos s s.nfp (w false) (w true) (xm mn) (xn mn) else nyqSin s s.nfp (w false) (w true) (xm mn) (xn mn)

theorem accLoop (q : Field) (a : Bool) (K : Int → (Bool → Int → ℝ) → ℝ) (mem : (NReg → ℝ) × (NLoc → ℝ)) (hz : mem.1 (.acc q a) = 0) :
    (run ((irange 0 s.nZeta).flatMap fun k => [.set (.acc q a) fun r => r (.acc q a) + K k (fun sine i => r (.work q sine a i))]) mem).1 (.acc q a) =
      forRange 0 s.nZeta (fun k x => x + K k (fun sine i => mem.1 (.work q sine a i))) 0 ∧
    (run ((irange 0 s.nZeta).flatMap fun k => [.set (.acc q a) fun r => r (.acc q a) + K k (fun sine i => r (.work q sine a i))]) mem).2 = mem.2 := by
  rw [run_flatMap_irange]
  have h1 := forRange_map (lo := 0) (hi := s.nZeta)
    (fun k (mm : (NReg → ℝ) × (NLoc → ℝ)) => run [.set (.acc q a) fun r => r (.acc q a) + K k (fun sine i => r (.work q sine a i))] mm)
    (fun k (x : ℝ × (Bool → Int → ℝ) × (NLoc → ℝ)) => (x.1 + K k x.2.1, x.2))
    (fun mm => (mm.1 (.acc q a), (fun sine i => mm.1 (.work q sine a i)), mm.2)) (fun k mm => by simp [run, Op.exec, put]) mem
  have h2 := forRange_map (lo := 0) (hi := s.nZeta)
    (fun k (x : ℝ) => x + K k (fun sine i => mem.1 (.work q sine a i)))
    (fun k (x : ℝ × (Bool → Int → ℝ) × (NLoc → ℝ)) => (x.1 + K k x.2.1, x.2))
    (fun x => (x, (fun sine i => mem.1 (.work q sine a i)), mem.2)) (fun k x => rfl) 0
  rw [hz, ← h2] at h1
  exact ⟨congrArg Prod.fst h1, congrArg (fun z => z.2.2) h1⟩

theorem toroidalOps_store (xm xn : Int → Int) (shift j mn : Int) (a : Bool) (q : Field) (mem : (NReg → ℝ) × (NLoc → ℝ)) :
    (run (toroidalOps s xm xn shift j mn a q) mem).2 =
      put mem.2 (.out q a mn (j + shift)) (coeff s xm xn q a mn (fun sine i => mem.1 (.work q sine a i))) ∧
    ∀ q' sine' a' i, (run (toroidalOps s xm xn shift j mn a q) mem).1 (.work q' sine' a' i) = mem.1 (.work q' sine' a' i) := by
  refine ⟨?_, fun q' sine' a' i => run_keep_reg (fun o ho => ?_) _⟩
  · unfold toroidalOps
    rw [run_append, run_append]
    have last : ∀ (mm : (NReg → ℝ) × (NLoc → ℝ)) (c : ℝ),
        (run [Op.set (.acc q a) (fun r => c * r (.acc q a)), .store (.out q a mn (j + shift)) (.acc q a)] mm).2 =
          put mm.2 (.out q a mn (j + shift)) (c * mm.1 (.acc q a)) := by
      intro mm c; simp [run, Op.exec, put]
    rw [last]
    by_cases hc : (q = .bsubs) = (a = true)
    · simp only [coeff, hc, if_true, nyqCos]
      obtain ⟨e1, e2⟩ := accLoop s q a (fun k w =>
        (cosnvNyq s s.nfp (k * (s.nnyq2 + 1) + |(xn mn).tdiv s.nfp|) * w false (xm mn * s.nZeta + k) +
          ((xn mn).tdiv s.nfp).sign * (torTables fastPoloidal s s.nfp (k * (s.nnyq2 + 1) + |(xn mn).tdiv s.nfp|)).sinnv * w true (xm mn * s.nZeta + k)))
        (run [Op.set (.acc q a) (fun _ => 0)] mem) (by simp [run, Op.exec, put])
      rw [e1, e2]
      simp [run, Op.exec, put]
    · simp only [coeff, hc, if_false, nyqSin]
      obtain ⟨e1, e2⟩ := accLoop s q a (fun k w =>
        (cosnvNyq s s.nfp (k * (s.nnyq2 + 1) + |(xn mn).tdiv s.nfp|) * w true (xm mn * s.nZeta + k) -
          ((xn mn).tdiv s.nfp).sign * (torTables fastPoloidal s s.nfp (k * (s.nnyq2 + 1) + |(xn mn).tdiv s.nfp|)).sinnv * w false (xm mn * s.nZeta + k)))
        (run [Op.set (.acc q a) (fun _ => 0)] mem) (by simp [run, Op.exec, put])
      rw [e1, e2]
      simp [run, Op.exec, put]
  · simp only [toroidalOps, List.mem_append, List.mem_flatMap] at ho
    rcases ho with (ho | ⟨k, _, ho⟩) | ho
    · fin_cases ho; simp [Op.sets]
    · split_ifs at ho
      all_goals fin_cases ho; simp [Op.sets]
    · fin_cases ho <;> simp [Op.sets]

/-- shared memory after the toroidal sums -/
theorem phase2_shared (xm xn : Int → Int) (shift : Int) (qs : List Field) (j : Int) (mem : (NReg → ℝ) × (NLoc → ℝ)) :
    (∀ q ∈ qs, ∀ a ∈ parities s, ∀ mn, 0 ≤ mn → mn < s.mnmax_nyq →
      (run (phase2 s xm xn shift qs j) mem).2 (.out q a mn (j + shift)) = coeff s xm xn q a mn (fun sine i => mem.1 (.work q sine a i))) := by
  intro q hq a ha mn m0 m1
  obtain ⟨v, hv⟩ : ∃ v, v = coeff s xm xn q a mn (fun sine i => mem.1 (.work q sine a i)) := ⟨_, rfl⟩
  rw [← hv]
  have G0 (ops : List (Op NLoc NReg ℝ)) (h : ∀ o ∈ ops, ∀ q sine a i, ¬ o.sets (.work q sine a i)) (mm : (NReg → ℝ) × (NLoc → ℝ))
      (e : ∀ q sine a i, mm.1 (.work q sine a i) = mem.1 (.work q sine a i)) : ∀ q sine a i, (run ops mm).1 (.work q sine a i) = mem.1 (.work q sine a i) := by
    intro q sine a i
    rw [run_keep_reg (fun o ho => h o ho q sine a i), e]
  have hsets : ∀ mn a q, ∀ o ∈ toroidalOps s xm xn shift j mn a q, ∀ q' sine' a' i, ¬ o.sets (.work q' sine' a' i) := by
    intro mn a q o ho q' sine' a' i
    simp only [toroidalOps, List.mem_append, List.mem_flatMap] at ho
    rcases ho with (ho | ⟨k, _, ho⟩) | ho
    · fin_cases ho; simp [Op.sets]
    · split_ifs at ho
      all_goals fin_cases ho; simp [Op.sets]
    · fin_cases ho <;> simp [Op.sets]
  have hwr : ∀ mn' a' q', ¬ (mn' = mn ∧ a' = a ∧ q' = q) → ∀ o ∈ toroidalOps s xm xn shift j mn' a' q', ¬ o.writes (.out q a mn (j + shift)) := by
    intro mn' a' q' hne o ho
    simp only [toroidalOps, List.mem_append, List.mem_flatMap] at ho
    rcases ho with (ho | ⟨k, _, ho⟩) | ho
    · fin_cases ho; simp [Op.writes]
    · split_ifs at ho
      all_goals fin_cases ho; simp [Op.writes]
    · fin_cases ho
      · simp [Op.writes]
      · simp only [Op.writes, NLoc.out.injEq]
        rintro ⟨rfl, rfl, rfl, _⟩; exact hne ⟨rfl, rfl, rfl⟩
  let Gp : (NReg → ℝ) × (NLoc → ℝ) → Prop := fun mm => ∀ q sine a i, mm.1 (.work q sine a i) = mem.1 (.work q sine a i)
  let Q : (NReg → ℝ) × (NLoc → ℝ) → Prop := fun mm => mm.2 (.out q a mn (j + shift)) = v
  refine run_flatMap_est (x := mn) (mem_irange.mpr ⟨m0, m1⟩) Gp Q ?_ ?_ ?_ (fun _ _ _ _ => rfl)
  · intro mn' _ mm e
    refine G0 _ ?_ mm e
    intro o ho
    simp only [List.mem_flatMap] at ho
    obtain ⟨a', _, q', _, ho⟩ := ho
    exact hsets mn' a' q' o ho
  · intro mm e
    refine run_flatMap_est (x := a) ha Gp Q ?_ ?_ ?_ e
    · intro a' _ mm e
      refine G0 _ ?_ mm e
      intro o ho
      simp only [List.mem_flatMap] at ho
      obtain ⟨q', _, ho⟩ := ho
      exact hsets mn a' q' o ho
    · intro mm e
      refine run_flatMap_est (x := q) hq Gp Q ?_ ?_ ?_ e
      · intro q' _ mm e; exact G0 _ (hsets mn a q') mm e
      · intro mm e
        show (run (toroidalOps s xm xn shift j mn a q) mm).2 (.out q a mn (j + shift)) = v
        rw [(toroidalOps_store s xm xn shift j mn a q mm).1]
        simp only [put, if_true, hv]
        congr 1
        funext sine i
        exact e q sine a i
      · intro q' _ hne mm _ hQ
        show (run (toroidalOps s xm xn shift j mn a q') mm).2 (.out q a mn (j + shift)) = v
        rw [run_keep (hwr mn a q' (fun h => hne h.2.2))]; exact hQ
    · intro a' _ hne mm _ hQ
      show (run _ mm).2 (.out q a mn (j + shift)) = v
      rw [run_keep]; · exact hQ
      intro o ho
      simp only [List.mem_flatMap] at ho
      obtain ⟨q', _, ho⟩ := ho
      exact hwr mn a' q' (fun h => hne h.2.1) o ho
  · intro mn' _ hne mm _ hQ
    show (run _ mm).2 (.out q a mn (j + shift)) = v
    rw [run_keep]; · exact hQ
    intro o ho
    simp only [List.mem_flatMap] at ho
    obtain ⟨a', _, q', _, ho⟩ := ho
    exact hwr mn' a' q' (fun h => hne h.1) o ho

theorem phase2_writes (xm xn : Int → Int) (shift : Int) (qs : List Field) (j : Int) (loc : NLoc) :
    (∃ o ∈ phase2 s xm xn shift qs j, o.writes loc) ↔
      ∃ q ∈ qs, ∃ a ∈ parities s, ∃ mn, 0 ≤ mn ∧ mn < s.mnmax_nyq ∧ loc = .out q a mn (j + shift) := by
  constructor
  · rintro ⟨o, ho, hw⟩
    simp only [phase2, List.mem_flatMap, mem_irange] at ho
    obtain ⟨mn, hmn, a, ha, q, hq, ho⟩ := ho
    refine ⟨q, hq, a, ha, mn, hmn.1, hmn.2, ?_⟩
    simp only [toroidalOps, List.mem_append, List.mem_flatMap] at ho
    rcases ho with (ho | ⟨k, _, ho⟩) | ho
    · fin_cases ho; simp [Op.writes] at hw
    · split_ifs at ho
      all_goals fin_cases ho; simp [Op.writes] at hw
    · fin_cases ho
      · simp [Op.writes] at hw
      · exact hw.symm
  · rintro ⟨q, hq, a, ha, mn, m0, m1, rfl⟩
    refine ⟨.store (.out q a mn (j + shift)) (.acc q a), ?_, rfl⟩
    simp only [phase2, List.mem_flatMap, mem_irange]
    exact ⟨mn, ⟨m0, m1⟩, a, ha, q, hq, by simp [toroidalOps]⟩

theorem phase2_loads (xm xn : Int → Int) (shift : Int) (qs : List Field) (j : Int) {o : Op NLoc NReg ℝ} (ho : o ∈ phase2 s xm xn shift qs j) {loc : NLoc}
    (ht : o.touches loc) : o.writes loc := by
  simp only [phase2, List.mem_flatMap, mem_irange] at ho
  obtain ⟨mn, _, a, _, q, _, ho⟩ := ho
  simp only [toroidalOps, List.mem_append, List.mem_flatMap] at ho
  rcases ho with (ho | ⟨k, _, ho⟩) | ho
  · fin_cases ho; simp [Op.touches] at ht
  · split_ifs at ho
    all_goals fin_cases ho; simp [Op.touches] at ht
  · fin_cases ho
    · simp [Op.touches] at ht
    · exact ht

theorem phase1_touches (qs : List Field) (j : Int) {o : Op NLoc NReg ℝ} (ho : o ∈ phase1 s qs j) {loc : NLoc} (ht : o.touches loc) :
    ∃ q i, loc = .field q i := by
  simp only [phase1, List.mem_flatMap] at ho
  obtain ⟨m, _, k, _, q, _, ho⟩ := ho
  simp only [poloidalOps, List.mem_append, List.mem_flatMap] at ho
  rcases ho with (⟨b, _, ho⟩ | ⟨l, _, ho⟩) | ⟨b, _, ho⟩
  · fin_cases ho <;> simp [Op.touches] at ht
  · simp only [pointOps, List.mem_append, List.mem_flatMap] at ho
    rcases ho with (ho | ho) | ⟨b, _, ho⟩
    · fin_cases ho; exact ⟨_, _, ht.symm⟩
    · split_ifs at ho
      · fin_cases ho; exact ⟨_, _, ht.symm⟩
      · cases ho
    · fin_cases ho <;> simp [Op.touches] at ht
  · fin_cases ho <;> simp [Op.touches] at ht

theorem clearOps_silent (qs : List Field) {o : Op NLoc NReg ℝ} (ho : o ∈ clearOps s qs) (loc : NLoc) : ¬ o.touches loc := by
  simp only [clearOps, List.mem_flatMap] at ho
  obtain ⟨q, _, a, _, i, _, ho⟩ := ho
  fin_cases ho <;> simp [Op.touches]

/-- one iteration: `pre` is nothing or the clearing of the work arrays -/
noncomputable def surfaceOps (pre : List (Op NLoc NReg ℝ)) (xm xn : Int → Int) (shift : Int) (qs : List Field) (j : Int) : List (Op NLoc NReg ℝ) :=
  pre ++ phase1 s qs j ++ phase2 s xm xn shift qs j

theorem surfaceOps_writes {pre : List (Op NLoc NReg ℝ)} (hpre : ∀ o ∈ pre, ∀ loc, ¬ o.touches loc) (xm xn : Int → Int) (shift : Int) (qs : List Field)
    (j : Int) (loc : NLoc) : (∃ o ∈ surfaceOps s pre xm xn shift qs j, o.writes loc) ↔
      ∃ q ∈ qs, ∃ a ∈ parities s, ∃ mn, 0 ≤ mn ∧ mn < s.mnmax_nyq ∧ loc = .out q a mn (j + shift) := by
  rw [← phase2_writes s xm xn shift qs j loc]
  unfold surfaceOps
  constructor
  · rintro ⟨o, ho, hw⟩
    rcases List.mem_append.mp ho with h | h
    · rcases List.mem_append.mp h with h | h
      · exact absurd (touches_of_writes hw) (hpre o h loc)
      · exact absurd hw (phase1_quiet s qs j o h loc)
    · exact ⟨o, h, hw⟩
  · rintro ⟨o, ho, hw⟩
    exact ⟨o, List.mem_append_right _ ho, hw⟩

/-- shared memory after one iteration -/
theorem surfaceOps_out {lasym : Bool} {nfp mpol ntor ntheta nzeta mg ng : Int} (hs : Sizes.mk lasym nfp mpol ntor ntheta nzeta mg ng = .ok s) {pre : List (Op NLoc NReg ℝ)} (hpre : ∀ o ∈ pre, ∀ loc, ¬ o.touches loc) (xm xn : Int → Int) (shift : Int) (qs : List Field) (j : Int)
    (hx : ∀ mn, 0 ≤ mn → mn < s.mnmax_nyq → 0 ≤ xm mn ∧ xm mn ≤ s.mnyq) (p : NReg → ℝ) (σ : NLoc → ℝ) (q : Field) (hq : q ∈ qs) (a : Bool)
    (ha : a ∈ parities s) (mn : Int) (m0 : 0 ≤ mn) (m1 : mn < s.mnmax_nyq) :
    (run (surfaceOps s pre xm xn shift qs j) (p, σ)).2 (.out q a mn (j + shift)) =
      coeff s xm xn q a mn (fun sine => nyqPoloidal s (polTab s sine) (nyqPart s (reflSign q a) (fun i => σ (.field q i)) j)) := by
  unfold surfaceOps
  rw [run_append, phase2_shared s xm xn shift qs j _ q hq a ha mn m0 m1, run_append]
  have hσ : (run pre (p, σ)).2 = σ := run_quiet (fun o ho b hw => hpre o ho b (touches_of_writes hw)) _
  have hw : ∀ sine k, 0 ≤ k → k < s.nZeta → (run (phase1 s qs j) (run pre (p, σ))).1 (.work q sine a (xm mn * s.nZeta + k)) =
      nyqPoloidal s (polTab s sine) (nyqPart s (reflSign q a) (fun i => σ (.field q i)) j) (xm mn * s.nZeta + k) := by
    intro sine k k0 k1
    obtain ⟨x0, x1⟩ := hx mn m0 m1
    rw [phase1_work s qs j (xm mn) k x0 (by omega) k0 k1 q hq sine a ha, hσ, nyqPoloidal_eq hs _ _ _ _ x0 x1 k0 k1, forRange_add, zero_add]
  unfold coeff nyqCos nyqSin
  split_ifs
  · dsimp only
    refine congrArg _ (forRange_congr _ _ _ (fun k acc k0 k1 => ?_))
    simp only [hw _ k k0 k1]
  · dsimp only
    refine congrArg _ (forRange_congr _ _ _ (fun k acc k0 k1 => ?_))
    simp only [hw _ k k0 k1]

theorem surfaceOps_independent {lasym : Bool} {nfp mpol ntor ntheta nzeta mg ng : Int} (hs : Sizes.mk lasym nfp mpol ntor ntheta nzeta mg ng = .ok s) {pre : List (Op NLoc NReg ℝ)} (hpre : ∀ o ∈ pre, ∀ loc, ¬ o.touches loc) (xm xn : Int → Int) (shift num : Int) (qs : List Field)
    (hx : ∀ mn, 0 ≤ mn → mn < s.mnmax_nyq → 0 ≤ xm mn ∧ xm mn ≤ s.mnyq) :
    Independent (surfaceOps s pre xm xn shift qs) {j | 0 ≤ j ∧ j < num} := by
  constructor
  · intro i _ j _ hij o ho o' ho' loc hw ht
    obtain ⟨q, _, a, _, mn, _, _, rfl⟩ := (surfaceOps_writes s hpre xm xn shift qs i loc).mp ⟨o, ho, hw⟩
    unfold surfaceOps at ho'
    rcases List.mem_append.mp ho' with h | h
    · rcases List.mem_append.mp h with h | h
      · exact hpre o' h _ ht
      · obtain ⟨q', i', e⟩ := phase1_touches s qs j h ht
        cases e
    · have hw' := phase2_loads s xm xn shift qs j h ht
      obtain ⟨q', _, a', _, mn', _, _, e⟩ := (phase2_writes s xm xn shift qs j _).mp ⟨o', h, hw'⟩
      simp only [NLoc.out.injEq] at e
      omega
  · intro j _ p p' σ
    funext loc
    by_cases h : ∃ o ∈ surfaceOps s pre xm xn shift qs j, o.writes loc
    · obtain ⟨q, hq, a, ha, mn, m0, m1, rfl⟩ := (surfaceOps_writes s hpre xm xn shift qs j loc).mp h
      rw [surfaceOps_out s hs hpre xm xn shift qs j hx p σ q hq a ha mn m0 m1, surfaceOps_out s hs hpre xm xn shift qs j hx p' σ q hq a ha mn m0 m1]
    · rw [run_keep (fun o ho hw => h ⟨o, ho, hw⟩), run_keep (fun o ho hw => h ⟨o, ho, hw⟩)]

end
end Verif.ParFor
