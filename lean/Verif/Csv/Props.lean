import Verif.Csv.Lemmas
import Mathlib.Logic.Encodable.Basic
import Mathlib.Data.Rat.Encodable
import Mathlib.Logic.Equiv.List

/-!
# Property C116

A curve or surface that is written to a CSV file and read again is the same curve or surface.
-/
namespace Verif.Csv
open Verif Verif.Coils

/-! ## Specification -/

/-- mode number and at least one of the coefficients are given -/
def Coef1.Given (c : Coef1) : Prop := (∃ x, c.fcCos = some x ∨ c.fcSin = some x) ∧ ∃ n, c.mode = some n

def Coef2.Given (c : Coef2) : Prop :=
  (∃ x, c.fcCos = some x ∨ c.fcSin = some x) ∧ (∃ m, c.m = some m) ∧ ∃ n, c.n = some n

/-- a curve: R and Z are given for the same modes, of which there is at least one -/
def Curve.Full (c : Curve) : Prop :=
  c.r ≠ [] ∧ List.Forall₂ (fun r z => r.Given ∧ z.Given ∧ r.mode = z.mode) c.r c.z

def Surface.Full (c : Surface) : Prop :=
  c.r ≠ [] ∧ List.Forall₂ (fun r z => r.Given ∧ z.Given ∧ r.m = z.m ∧ r.n = z.n) c.r c.z

/-- The conversions: numbers are written without blanks, commas and line feeds; integers are read as
    written; a decimal number `x` is read as the double `fl x`. -/
structure Fmt.Ok (F : Fmt) (fl : ℚ → ℚ) : Prop where
  int_cell : ∀ n, IsCell (F.showI n)
  num_cell : ∀ x, IsCell (F.num x)
  int_back : ∀ n, F.stoi (F.showI n) = some n
  num_back : ∀ x, F.stod (F.num x) = some (fl x)

/-- what becomes of a coefficient; one that is not given counts as zero -/
def again (fl : ℚ → ℚ) (x : Option ℚ) : Option ℚ := some (fl (round16 (x.getD 0)))

def Coef1.again (fl : ℚ → ℚ) (c : Coef1) : Coef1 := ⟨Csv.again fl c.fcCos, Csv.again fl c.fcSin, c.mode⟩

def Coef2.again (fl : ℚ → ℚ) (c : Coef2) : Coef2 := ⟨Csv.again fl c.fcCos, Csv.again fl c.fcSin, c.m, c.n⟩

/-- `x` survives: it is given and the double closest to its first 16 digits -/
def Survives (fl : ℚ → ℚ) (x : Option ℚ) : Prop := ∃ q, x = some q ∧ fl (round16 q) = q

/-! ## Completeness check -/

theorem checkCoef1_ok (c : Coef1) : checkCoef1 c = .ok () ↔ c.Given := by
  obtain ⟨a, b, n⟩ := c
  cases a <;> cases b <;> cases n <;> simp [checkCoef1, Coef1.Given]
  all_goals exact ⟨_, Or.inl rfl⟩

theorem checkCoef2_ok (c : Coef2) : checkCoef2 c = .ok () ↔ c.Given := by
  obtain ⟨a, b, m, n⟩ := c
  cases a <;> cases b <;> cases m <;> cases n <;> simp [checkCoef2, Coef2.Given]
  all_goals exact ⟨_, Or.inl rfl⟩

theorem checkCoef1_status (c : Coef1) : checkCoef1 c = .ok () ∨ ∃ m, checkCoef1 c = .status m := by
  unfold checkCoef1; split
  · exact Or.inr ⟨_, rfl⟩
  · split
    · exact Or.inr ⟨_, rfl⟩
    · exact Or.inl rfl

theorem checkCoef2_status (c : Coef2) : checkCoef2 c = .ok () ∨ ∃ m, checkCoef2 c = .status m := by
  unfold checkCoef2; split
  · exact Or.inr ⟨_, rfl⟩
  · split
    · exact Or.inr ⟨_, rfl⟩
    · split
      · exact Or.inr ⟨_, rfl⟩
      · exact Or.inl rfl

theorem checkCurveLoop_spec (rs zs : List Coef1) (hl : rs.length = zs.length) :
    (checkCurveLoop rs zs = .ok () ∧
      List.Forall₂ (fun r z => r.Given ∧ z.Given ∧ r.mode = z.mode) rs zs) ∨
    ((∃ m, checkCurveLoop rs zs = .status m) ∧
      ¬ List.Forall₂ (fun r z => r.Given ∧ z.Given ∧ r.mode = z.mode) rs zs) := by
  induction rs generalizing zs with
  | nil =>
    cases zs with
    | nil => exact Or.inl ⟨rfl, .nil⟩
    | cons z zs => simp at hl
  | cons r rs ih =>
    cases zs with
    | nil => simp at hl
    | cons z zs =>
      rw [List.forall₂_cons]
      simp only [checkCurveLoop]
      rcases checkCoef1_status r with h1 | ⟨m, h1⟩
      · rw [h1, Outcome.bind_ok]
        have g1 := (checkCoef1_ok r).1 h1
        rcases checkCoef1_status z with h2 | ⟨m, h2⟩
        · rw [h2, Outcome.bind_ok]
          have g2 := (checkCoef1_ok z).1 h2
          have hm : (r.mode.getD 0 = z.mode.getD 0) ↔ r.mode = z.mode := by
            obtain ⟨-, n, e⟩ := g1
            obtain ⟨-, k, e'⟩ := g2
            rw [e, e']; simp
          by_cases h : r.mode = z.mode
          · rw [if_neg (by rw [not_not]; exact hm.2 h)]
            rcases ih zs (by simpa using hl) with ⟨a, b⟩ | ⟨a, b⟩
            · exact Or.inl ⟨a, ⟨g1, g2, h⟩, b⟩
            · exact Or.inr ⟨a, fun h => b h.2⟩
          · rw [if_pos (fun e => h (hm.1 e))]
            exact Or.inr ⟨⟨_, rfl⟩, fun g => h g.1.2.2⟩
        · rw [h2]
          refine Or.inr ⟨⟨_, rfl⟩, fun g => ?_⟩
          rw [(checkCoef1_ok z).2 g.1.2.1] at h2; cases h2
      · rw [h1]
        refine Or.inr ⟨⟨_, rfl⟩, fun g => ?_⟩
        rw [(checkCoef1_ok r).2 g.1.1] at h1; cases h1

theorem checkSurfaceLoop_spec (rs zs : List Coef2) (hl : rs.length = zs.length) :
    (checkSurfaceLoop rs zs = .ok () ∧
      List.Forall₂ (fun r z => r.Given ∧ z.Given ∧ r.m = z.m ∧ r.n = z.n) rs zs) ∨
    ((∃ m, checkSurfaceLoop rs zs = .status m) ∧
      ¬ List.Forall₂ (fun r z => r.Given ∧ z.Given ∧ r.m = z.m ∧ r.n = z.n) rs zs) := by
  induction rs generalizing zs with
  | nil =>
    cases zs with
    | nil => exact Or.inl ⟨rfl, .nil⟩
    | cons z zs => simp at hl
  | cons r rs ih =>
    cases zs with
    | nil => simp at hl
    | cons z zs =>
      rw [List.forall₂_cons]
      simp only [checkSurfaceLoop]
      rcases checkCoef2_status r with h1 | ⟨m, h1⟩
      · rw [h1, Outcome.bind_ok]
        have g1 := (checkCoef2_ok r).1 h1
        rcases checkCoef2_status z with h2 | ⟨m, h2⟩
        · rw [h2, Outcome.bind_ok]
          have g2 := (checkCoef2_ok z).1 h2
          have hm : (r.m.getD 0 = z.m.getD 0) ↔ r.m = z.m := by
            obtain ⟨-, ⟨n, e⟩, -⟩ := g1
            obtain ⟨-, ⟨k, e'⟩, -⟩ := g2
            rw [e, e']; simp
          have hn : (r.n.getD 0 = z.n.getD 0) ↔ r.n = z.n := by
            obtain ⟨-, -, n, e⟩ := g1
            obtain ⟨-, -, k, e'⟩ := g2
            rw [e, e']; simp
          by_cases h : r.m = z.m
          · rw [if_neg (by rw [not_not]; exact hm.2 h)]
            by_cases h' : r.n = z.n
            · rw [if_neg (by rw [not_not]; exact hn.2 h')]
              rcases ih zs (by simpa using hl) with ⟨a, b⟩ | ⟨a, b⟩
              · exact Or.inl ⟨a, ⟨g1, g2, h, h'⟩, b⟩
              · exact Or.inr ⟨a, fun h => b h.2⟩
            · rw [if_pos (fun e => h' (hn.1 e))]
              exact Or.inr ⟨⟨_, rfl⟩, fun g => h' g.1.2.2.2⟩
          · rw [if_pos (fun e => h (hm.1 e))]
            exact Or.inr ⟨⟨_, rfl⟩, fun g => h g.1.2.2.1⟩
        · rw [h2]
          refine Or.inr ⟨⟨_, rfl⟩, fun g => ?_⟩
          rw [(checkCoef2_ok z).2 g.1.2.1] at h2; cases h2
      · rw [h1]
        refine Or.inr ⟨⟨_, rfl⟩, fun g => ?_⟩
        rw [(checkCoef2_ok r).2 g.1.1] at h1; cases h1

theorem checkCurve_spec (c : Curve) : (checkCurve c = .ok () ∧ c.Full) ∨ ((∃ m, checkCurve c = .status m) ∧ ¬ c.Full) := by
  unfold checkCurve
  by_cases h0 : c.r.length = 0
  · rw [if_pos h0]
    exact Or.inr ⟨⟨_, rfl⟩, fun h => h.1 (List.length_eq_zero_iff.1 h0)⟩
  · rw [if_neg h0]
    by_cases h1 : c.z.length = 0
    · rw [if_pos h1]
      exact Or.inr ⟨⟨_, rfl⟩, fun h => h0 (h.2.length_eq.trans h1)⟩
    · rw [if_neg h1]
      by_cases h2 : c.r.length = c.z.length
      · rw [if_neg (by rw [not_not]; exact h2)]
        rcases checkCurveLoop_spec c.r c.z h2 with ⟨a, b⟩ | ⟨a, b⟩
        · exact Or.inl ⟨a, fun e => h0 (by rw [e]; rfl), b⟩
        · exact Or.inr ⟨a, fun h => b h.2⟩
      · rw [if_pos h2]
        exact Or.inr ⟨⟨_, rfl⟩, fun h => h2 h.2.length_eq⟩

theorem checkSurface_spec (c : Surface) :
    (checkSurface c = .ok () ∧ c.Full) ∨ ((∃ m, checkSurface c = .status m) ∧ ¬ c.Full) := by
  unfold checkSurface
  by_cases h0 : c.r.length = 0
  · rw [if_pos h0]
    exact Or.inr ⟨⟨_, rfl⟩, fun h => h.1 (List.length_eq_zero_iff.1 h0)⟩
  · rw [if_neg h0]
    by_cases h1 : c.z.length = 0
    · rw [if_pos h1]
      exact Or.inr ⟨⟨_, rfl⟩, fun h => h0 (h.2.length_eq.trans h1)⟩
    · rw [if_neg h1]
      by_cases h2 : c.r.length = c.z.length
      · rw [if_neg (by rw [not_not]; exact h2)]
        rcases checkSurfaceLoop_spec c.r c.z h2 with ⟨a, b⟩ | ⟨a, b⟩
        · exact Or.inl ⟨a, fun e => h0 (by rw [e]; rfl), b⟩
        · exact Or.inr ⟨a, fun h => b h.2⟩
      · rw [if_pos h2]
        exact Or.inr ⟨⟨_, rfl⟩, fun h => h2 h.2.length_eq⟩

/-- **C116** (completeness): writing and the columns succeed exactly for complete curves and surfaces
    and report an error for all others. -/
theorem C116_complete (F : Fmt) :
    (∀ c : Curve, (c.Full → (curveToCsv F c).IsOk ∧ (curveColumns c).IsOk) ∧
      (¬ c.Full → (∃ m, curveToCsv F c = .status m) ∧ ∃ m, curveColumns c = .status m)) ∧
    (∀ c : Surface, (c.Full → (surfaceToCsv F c).IsOk ∧ (surfaceColumns c).IsOk) ∧
      (¬ c.Full → (∃ m, surfaceToCsv F c = .status m) ∧ ∃ m, surfaceColumns c = .status m)) := by
  refine ⟨fun c => ?_, fun c => ?_⟩
  · rcases checkCurve_spec c with ⟨h, g⟩ | ⟨⟨m, h⟩, g⟩
    · refine ⟨fun _ => ?_, fun k => absurd g k⟩
      unfold curveToCsv curveColumns
      rw [h]
      exact ⟨⟨_, rfl⟩, ⟨_, rfl⟩⟩
    · refine ⟨fun k => absurd k g, fun _ => ?_⟩
      unfold curveToCsv curveColumns
      rw [h]
      exact ⟨⟨_, rfl⟩, ⟨_, rfl⟩⟩
  · rcases checkSurface_spec c with ⟨h, g⟩ | ⟨⟨m, h⟩, g⟩
    · refine ⟨fun _ => ?_, fun k => absurd g k⟩
      unfold surfaceToCsv surfaceColumns
      rw [h]
      exact ⟨⟨_, rfl⟩, ⟨_, rfl⟩⟩
    · refine ⟨fun k => absurd k g, fun _ => ?_⟩
      unfold surfaceToCsv surfaceColumns
      rw [h]
      exact ⟨⟨_, rfl⟩, ⟨_, rfl⟩⟩

/-! ## Round trip -/

section
variable {F : Fmt} {fl : ℚ → ℚ} (hF : F.Ok fl)
include hF

theorem put_cell (x : Option ℚ) : IsCell (put F x) := hF.num_cell _

theorem curveLine_noSpace (r z : Coef1) : ∀ c ∈ curveLine F r z, isSpace c = false :=
  noSpace_append (hF.int_cell _).noSpace (noSpace_append (put_cell hF _).noSpace
    (noSpace_append (put_cell hF _).noSpace (noSpace_append (put_cell hF _).noSpace (put_cell hF _).noSpace)))

theorem surfaceLine_noSpace (r z : Coef2) : ∀ c ∈ surfaceLine F r z, isSpace c = false :=
  noSpace_append (hF.int_cell _).noSpace (noSpace_append (hF.int_cell _).noSpace
    (noSpace_append (put_cell hF _).noSpace (noSpace_append (put_cell hF _).noSpace
      (noSpace_append (put_cell hF _).noSpace (put_cell hF _).noSpace))))

theorem readCurveLine_back {r z : Coef1} (hr : r.Given) (hm : r.mode = z.mode) :
    readCurveLine F (curveLine F r z) = .ok (r.again fl, z.again fl) := by
  obtain ⟨-, n, e⟩ := hr
  unfold readCurveLine
  rw [strip_none (curveLine_noSpace hF r z)]
  unfold curveLine
  rw [fields_cons (hF.int_cell _), fields_cons (put_cell hF _), fields_cons (put_cell hF _),
    fields_cons (put_cell hF _), fields_last (put_cell hF _)]
  dsimp only
  rw [hF.int_back]
  dsimp only
  unfold put
  rw [hF.num_back, hF.num_back, hF.num_back, hF.num_back]
  unfold Coef1.again
  rw [← hm, e]
  rfl

theorem readSurfaceLine_back {r z : Coef2} (hr : r.Given) (hm : r.m = z.m) (hn : r.n = z.n) :
    readSurfaceLine F (surfaceLine F r z) = .ok (r.again fl, z.again fl) := by
  obtain ⟨-, ⟨m, e⟩, n, e'⟩ := hr
  unfold readSurfaceLine
  rw [strip_none (surfaceLine_noSpace hF r z)]
  unfold surfaceLine
  rw [fields_cons (hF.int_cell _), fields_cons (hF.int_cell _), fields_cons (put_cell hF _),
    fields_cons (put_cell hF _), fields_cons (put_cell hF _), fields_last (put_cell hF _)]
  dsimp only
  rw [hF.int_back, hF.int_back]
  dsimp only
  unfold put
  rw [hF.num_back, hF.num_back, hF.num_back, hF.num_back]
  unfold Coef2.again
  rw [← hm, ← hn, e, e']
  rfl

/-- **C116** (round trip): a complete curve or surface is written, and reading the text gives the
    same modes in the same order, with every coefficient replaced by the double closest to its first
    16 digits (0 if it was not given).
    Missing to the identity: 16 digits do not determine a double (`C116_digits_lost`). -/
theorem C116_roundtrip_partial :
    (∀ c : Curve, c.Full → ∃ text, curveToCsv F c = .ok text ∧
      curveFromCsv F text = .ok ⟨c.r.map (·.again fl), c.z.map (·.again fl)⟩) ∧
    (∀ c : Surface, c.Full → ∃ text, surfaceToCsv F c = .ok text ∧
      surfaceFromCsv F text = .ok ⟨c.r.map (·.again fl), c.z.map (·.again fl)⟩) := by
  refine ⟨fun c hc => ?_, fun c hc => ?_⟩
  · have hk : checkCurve c = .ok () := by
      rcases checkCurve_spec c with ⟨h, -⟩ | ⟨-, h⟩
      · exact h
      · exact absurd hc h
    refine ⟨_, by unfold curveToCsv; rw [hk]; rfl, ?_⟩
    unfold curveFromCsv
    rw [getlines_join]
    · dsimp only
      rw [if_neg (by simp)]
      have : readLines (readCurveLine F) (List.zipWith (curveLine F) c.r c.z) =
          .ok ((c.r.map (·.again fl)).zip (c.z.map (·.again fl))) := by
        rw [readLines_ok]
        have h := hc.2
        clear hk hc
        obtain ⟨rs, zs⟩ := c
        dsimp only at h ⊢
        induction h with
        | nil => exact .nil
        | cons h _ ih => exact .cons (readCurveLine_back hF h.1 h.2.2) ih
      rw [this, Outcome.bind_ok, List.map_fst_zip, List.map_snd_zip]
      · simp [hc.2.length_eq]
      · simp [hc.2.length_eq]
    · intro l hl
      rcases List.mem_cons.1 hl with rfl | hl
      · decide
      · rw [List.mem_iff_getElem] at hl
        obtain ⟨i, hi, rfl⟩ := hl
        rw [List.getElem_zipWith]
        exact no_newline (curveLine_noSpace hF _ _)
  · have hk : checkSurface c = .ok () := by
      rcases checkSurface_spec c with ⟨h, -⟩ | ⟨-, h⟩
      · exact h
      · exact absurd hc h
    refine ⟨_, by unfold surfaceToCsv; rw [hk]; rfl, ?_⟩
    unfold surfaceFromCsv
    rw [getlines_join]
    · dsimp only
      rw [if_neg (by simp)]
      have : readLines (readSurfaceLine F) (List.zipWith (surfaceLine F) c.r c.z) =
          .ok ((c.r.map (·.again fl)).zip (c.z.map (·.again fl))) := by
        rw [readLines_ok]
        have h := hc.2
        clear hk hc
        obtain ⟨rs, zs⟩ := c
        dsimp only at h ⊢
        induction h with
        | nil => exact .nil
        | cons h _ ih => exact .cons (readSurfaceLine_back hF h.1 h.2.2.1 h.2.2.2) ih
      rw [this, Outcome.bind_ok, List.map_fst_zip, List.map_snd_zip]
      · simp [hc.2.length_eq]
      · simp [hc.2.length_eq]
    · intro l hl
      rcases List.mem_cons.1 hl with rfl | hl
      · decide
      · rw [List.mem_iff_getElem] at hl
        obtain ⟨i, hi, rfl⟩ := hl
        rw [List.getElem_zipWith]
        exact no_newline (surfaceLine_noSpace hF _ _)

/-- **C116** (identity): if every coefficient survives, exactly the same curve comes back. -/
theorem C116_identity_partial (c : Curve) (hc : c.Full)
    (hs : ∀ x ∈ c.r ++ c.z, Survives fl x.fcCos ∧ Survives fl x.fcSin) :
    ∃ text, curveToCsv F c = .ok text ∧ curveFromCsv F text = .ok c := by
  obtain ⟨text, h1, h2⟩ := (C116_roundtrip_partial hF).1 c hc
  refine ⟨text, h1, ?_⟩
  have hid : ∀ l : List Coef1, (∀ x ∈ l, Survives fl x.fcCos ∧ Survives fl x.fcSin) →
      l.map (·.again fl) = l := by
    intro l hl
    conv_rhs => rw [← List.map_id l]
    refine List.map_congr_left fun x hx => ?_
    obtain ⟨⟨p, e1, e2⟩, ⟨q, e3, e4⟩⟩ := hl x hx
    obtain ⟨a, b, n⟩ := x
    dsimp only at e1 e3
    subst e1 e3
    simp [Coef1.again, Csv.again, e2, e4]
  rw [h2, hid _ fun x hx => hs x (by simp [hx]), hid _ fun x hx => hs x (by simp [hx])]

/-- **C116** (identity for surfaces). -/
theorem C116_surface_identity_partial (c : Surface) (hc : c.Full)
    (hs : ∀ x ∈ c.r ++ c.z, Survives fl x.fcCos ∧ Survives fl x.fcSin) :
    ∃ text, surfaceToCsv F c = .ok text ∧ surfaceFromCsv F text = .ok c := by
  obtain ⟨text, h1, h2⟩ := (C116_roundtrip_partial hF).2 c hc
  refine ⟨text, h1, ?_⟩
  have hid : ∀ l : List Coef2, (∀ x ∈ l, Survives fl x.fcCos ∧ Survives fl x.fcSin) →
      l.map (·.again fl) = l := by
    intro l hl
    conv_rhs => rw [← List.map_id l]
    refine List.map_congr_left fun x hx => ?_
    obtain ⟨⟨p, e1, e2⟩, ⟨q, e3, e4⟩⟩ := hl x hx
    obtain ⟨a, b, m, n⟩ := x
    dsimp only at e1 e3
    subst e1 e3
    simp [Coef2.again, Csv.again, e2, e4]
  rw [h2, hid _ fun x hx => hs x (by simp [hx]), hid _ fun x hx => hs x (by simp [hx])]

end

/-- **C116** (accuracy): with reading to the nearest double, a coefficient changes by at most
    `7·10⁻¹⁶` of its size. -/
theorem C116_accuracy (fl : ℚ → ℚ) (hfl : ∀ x, |fl x - x| ≤ 1 / 2 ^ 53 * |x|) (q : ℚ) :
    |fl (round16 q) - q| ≤ 7 / 10 ^ 16 * |q| := by
  by_cases hq : q = 0
  · subst hq
    rw [round16_zero]
    simpa using hfl 0
  have h1 := round16_err q hq
  have h2 := hfl (round16 q)
  have h3 : |round16 q| ≤ |q| + |round16 q - q| := by
    have := abs_add_le q (round16 q - q)
    simpa using this
  have h4 : |fl (round16 q) - q| ≤ |fl (round16 q) - round16 q| + |round16 q - q| := abs_sub_le _ _ _
  have h5 : (5 : ℚ) * 10 ^ (-16 : Int) = 5 / 10 ^ 16 := by norm_num
  rw [h5] at h1
  have h6 := abs_nonneg q
  have h7 : (1 : ℚ) / 2 ^ 53 * |round16 q| ≤ 1 / 2 ^ 53 * (|q| + 5 / 10 ^ 16 * |q|) :=
    mul_le_mul_of_nonneg_left (by linarith) (by norm_num)
  have h8 : (1 : ℚ) / 2 ^ 53 * (|q| + 5 / 10 ^ 16 * |q|) ≤ 2 / 10 ^ 16 * |q| := by
    have : (1 : ℚ) / 2 ^ 53 * (|q| + 5 / 10 ^ 16 * |q|) = (1 / 2 ^ 53 * (1 + 5 / 10 ^ 16)) * |q| := by ring
    rw [this]
    exact mul_le_mul_of_nonneg_right (by norm_num) h6
  have h9 : (7 : ℚ) / 10 ^ 16 * |q| = 2 / 10 ^ 16 * |q| + 5 / 10 ^ 16 * |q| := by ring
  rw [h9]
  linarith

theorem log_one_ulp : Int.log 10 |(1 + 1 / 2 ^ 52 : ℚ)| = 0 := by
  have h : |(1 + 1 / 2 ^ 52 : ℚ)| = 1 + 1 / 2 ^ 52 := abs_of_pos (by norm_num)
  rw [h, Int.log_of_one_le_right _ (by norm_num)]
  have : ⌊(1 + 1 / 2 ^ 52 : ℚ)⌋₊ = 1 := by
    rw [Nat.floor_eq_iff (by norm_num)]
    constructor <;> norm_num
  rw [this]
  rfl

/-- The double after 1 is written like 1. -/
theorem round16_one_ulp : round16 (1 + 1 / 2 ^ 52) = round16 1 := by
  have h1 : round16 1 = 1 := by
    unfold round16
    have : Int.log 10 |(1 : ℚ)| = 0 := by rw [abs_one]; exact Int.log_one_right 10
    rw [this]
    have e : (1 : ℚ) / 10 ^ ((0 : Int) - 15) = ((10 ^ 15 : Int) : ℚ) := by norm_num
    rw [e, round_intCast]
    norm_num
  rw [h1]
  unfold round16
  rw [log_one_ulp]
  have : round ((1 + 1 / 2 ^ 52 : ℚ) / 10 ^ ((0 : Int) - 15)) = 10 ^ 15 := by
    rw [round_eq, Int.floor_eq_iff]
    constructor <;> norm_num
  rw [this]
  norm_num

/-- **C116 fails** (digits): the curves with `R = 1` and with `R = 1 + 2⁻⁵²`, both doubles, are
    written as the same text.  Whatever reads it cannot give both back. -/
theorem C116_digits_lost (F : Fmt) :
    let curve (x : ℚ) : Curve := ⟨[⟨some x, some 0, some 0⟩], [⟨some 0, some 0, some 0⟩]⟩
    curve 1 ≠ curve (1 + 1 / 2 ^ 52) ∧ curveToCsv F (curve 1) = curveToCsv F (curve (1 + 1 / 2 ^ 52)) ∧
      ∀ read : Str → Outcome Curve, ∃ x, ¬ (curveToCsv F (curve x) >>= read) = .ok (curve x) := by
  intro curve
  have hne : curve 1 ≠ curve (1 + 1 / 2 ^ 52) := by
    intro h
    simp only [curve, Curve.mk.injEq, List.cons.injEq, Coef1.mk.injEq, Option.some.injEq] at h
    have := h.1.1.1
    norm_num at this
  have heq : curveToCsv F (curve 1) = curveToCsv F (curve (1 + 1 / 2 ^ 52)) := by
    have e : curveLine F ⟨some 1, some 0, some 0⟩ ⟨some 0, some 0, some 0⟩ =
        curveLine F ⟨some (1 + 1 / 2 ^ 52), some 0, some 0⟩ ⟨some 0, some 0, some 0⟩ := by
      simp only [curveLine, put, Option.getD_some, round16_one_ulp]
    simp only [curve, curveToCsv, checkCurve, checkCurveLoop, checkCoef1, List.zipWith, e]
    rfl
  refine ⟨hne, heq, fun read => ?_⟩
  by_contra hall
  push Not at hall
  have h1 := hall 1
  rw [heq, hall] at h1
  exact hne (Outcome.ok.inj h1).symm

/-! ## Reading any text -/

/-- the cells of a line between commas, without those that are blank -/
def Cells (raw : Str) (cells : List Str) : Prop := fields (strip raw) = cells

/-- **C116** (reading): a text is read as a curve exactly if its first line is the header and every
    further line has five cells that are numbers; then the curve has one mode per line.  For all
    texts the reading ends in a curve, an error or an exception. -/
theorem C116_read_curve (F : Fmt) (text : Str) :
    (∀ c : Curve, curveFromCsv F text = .ok c ↔ ∃ ls, getlines text = curveHeader :: ls ∧
      ∃ ps : List (Int × ℚ × ℚ × ℚ × ℚ), List.Forall₂ (fun raw p => ∃ n rc zs rs zc,
          Cells raw [n, rc, zs, rs, zc] ∧ F.stoi n = some p.1 ∧ F.stod rc = some p.2.1 ∧
          F.stod zs = some p.2.2.1 ∧ F.stod rs = some p.2.2.2.1 ∧ F.stod zc = some p.2.2.2.2) ls ps ∧
        c.r = ps.map (fun p => ⟨some p.2.1, some p.2.2.2.1, some p.1⟩) ∧
        c.z = ps.map (fun p => ⟨some p.2.2.2.2, some p.2.2.1, some p.1⟩)) ∧
    (curveFromCsv F text).Defined := by
  have key : ∀ raw q, readCurveLine F raw = .ok q ↔ ∃ p : Int × ℚ × ℚ × ℚ × ℚ, (∃ n rc zs rs zc,
      Cells raw [n, rc, zs, rs, zc] ∧ F.stoi n = some p.1 ∧ F.stod rc = some p.2.1 ∧
      F.stod zs = some p.2.2.1 ∧ F.stod rs = some p.2.2.2.1 ∧ F.stod zc = some p.2.2.2.2) ∧
      q = (⟨some p.2.1, some p.2.2.2.1, some p.1⟩, ⟨some p.2.2.2.2, some p.2.2.1, some p.1⟩) := by
    intro raw q
    constructor
    · intro h
      unfold readCurveLine at h
      split at h
      · rename_i a b c d e he
        split at h
        · cases h
        · rename_i n hn
          split at h
          · rename_i x1 x2 x3 x4 h1 h2 h3 h4
            rw [Outcome.ok.injEq] at h
            exact ⟨(n, x1, x2, x3, x4), ⟨a, b, c, d, e, he, hn, h1, h2, h3, h4⟩, h.symm⟩
          · cases h
      · cases h
    · rintro ⟨p, ⟨n, rc, zs, rs, zc, h, h0, h1, h2, h3, h4⟩, rfl⟩
      unfold readCurveLine
      unfold Cells at h
      rw [h]
      simp only [h0, h1, h2, h3, h4]
  constructor
  · intro c
    unfold curveFromCsv
    constructor
    · intro h
      split at h
      · cases h
      · rename_i hd ls hl
        split at h
        · cases h
        · rename_i hh
          rw [not_not] at hh
          subst hh
          refine ⟨ls, hl, ?_⟩
          cases hr : readLines (readCurveLine F) ls with
          | ok qs =>
            rw [hr, Outcome.bind_ok, Outcome.ok.injEq] at h
            subst h
            rw [readLines_ok] at hr
            clear hl
            induction hr with
            | nil => exact ⟨[], .nil, rfl, rfl⟩
            | cons h1 _ ih =>
              obtain ⟨ps, g1, g2, g3⟩ := ih
              obtain ⟨p, g, rfl⟩ := (key _ _).1 h1
              exact ⟨p :: ps, .cons g g1, congrArg (List.cons _) g2, congrArg (List.cons _) g3⟩
          | _ => rw [hr] at h; cases h
    · rintro ⟨ls, hl, ps, h1, h2, h3⟩
      rw [hl]
      dsimp only
      rw [if_neg (by simp)]
      have : readLines (readCurveLine F) ls = .ok (ps.map fun p =>
          (⟨some p.2.1, some p.2.2.2.1, some p.1⟩, ⟨some p.2.2.2.2, some p.2.2.1, some p.1⟩)) := by
        rw [readLines_ok]
        clear hl h2 h3
        induction h1 with
        | nil => exact .nil
        | cons g _ ih => exact .cons ((key _ _).2 ⟨_, g, rfl⟩) ih
      rw [this, Outcome.bind_ok]
      obtain ⟨r, z⟩ := c
      dsimp only at h2 h3
      subst h2 h3
      simp [List.map_map, Function.comp_def]
  · unfold curveFromCsv
    split
    · simp [Outcome.Defined]
    · split
      · simp [Outcome.Defined]
      · rename_i ls _ _
        have := readLines_defined (f := readCurveLine F) (fun l => by
          unfold readCurveLine
          split
          · split
            · simp [Outcome.Defined]
            · split <;> simp [Outcome.Defined]
          · simp [Outcome.Defined]) ls
        cases hr : readLines (readCurveLine F) ls with
        | ok qs => simp [Outcome.Defined]
        | ub w => exact absurd hr (this w)
        | _ => simp [Outcome.Defined]

/-- **C116** (reading a surface): the same with six cells. -/
theorem C116_read_surface (F : Fmt) (text : Str) :
    (∀ c : Surface, surfaceFromCsv F text = .ok c ↔ ∃ ls, getlines text = surfaceHeader :: ls ∧
      ∃ ps : List (Int × Int × ℚ × ℚ × ℚ × ℚ), List.Forall₂ (fun raw p => ∃ n m rc zs rs zc,
          Cells raw [n, m, rc, zs, rs, zc] ∧ F.stoi n = some p.1 ∧ F.stoi m = some p.2.1 ∧
          F.stod rc = some p.2.2.1 ∧ F.stod zs = some p.2.2.2.1 ∧ F.stod rs = some p.2.2.2.2.1 ∧
          F.stod zc = some p.2.2.2.2.2) ls ps ∧
        c.r = ps.map (fun p => ⟨some p.2.2.1, some p.2.2.2.2.1, some p.2.1, some p.1⟩) ∧
        c.z = ps.map (fun p => ⟨some p.2.2.2.2.2, some p.2.2.2.1, some p.2.1, some p.1⟩)) ∧
    (surfaceFromCsv F text).Defined := by
  have key : ∀ raw q, readSurfaceLine F raw = .ok q ↔ ∃ p : Int × Int × ℚ × ℚ × ℚ × ℚ, (∃ n m rc zs rs zc,
      Cells raw [n, m, rc, zs, rs, zc] ∧ F.stoi n = some p.1 ∧ F.stoi m = some p.2.1 ∧
      F.stod rc = some p.2.2.1 ∧ F.stod zs = some p.2.2.2.1 ∧ F.stod rs = some p.2.2.2.2.1 ∧
      F.stod zc = some p.2.2.2.2.2) ∧
      q = (⟨some p.2.2.1, some p.2.2.2.2.1, some p.2.1, some p.1⟩,
        ⟨some p.2.2.2.2.2, some p.2.2.2.1, some p.2.1, some p.1⟩) := by
    intro raw q
    constructor
    · intro h
      unfold readSurfaceLine at h
      split at h
      · rename_i a a' b c d e he
        split at h
        · rename_i n m hn hm
          split at h
          · rename_i x1 x2 x3 x4 h1 h2 h3 h4
            rw [Outcome.ok.injEq] at h
            exact ⟨(n, m, x1, x2, x3, x4), ⟨a, a', b, c, d, e, he, hn, hm, h1, h2, h3, h4⟩, h.symm⟩
          · cases h
        · cases h
      · cases h
    · rintro ⟨p, ⟨n, m, rc, zs, rs, zc, h, h0, h0', h1, h2, h3, h4⟩, rfl⟩
      unfold readSurfaceLine
      unfold Cells at h
      rw [h]
      simp only [h0, h0', h1, h2, h3, h4]
  constructor
  · intro c
    unfold surfaceFromCsv
    constructor
    · intro h
      split at h
      · cases h
      · rename_i hd ls hl
        split at h
        · cases h
        · rename_i hh
          rw [not_not] at hh
          subst hh
          refine ⟨ls, hl, ?_⟩
          cases hr : readLines (readSurfaceLine F) ls with
          | ok qs =>
            rw [hr, Outcome.bind_ok, Outcome.ok.injEq] at h
            subst h
            rw [readLines_ok] at hr
            clear hl
            induction hr with
            | nil => exact ⟨[], .nil, rfl, rfl⟩
            | cons h1 _ ih =>
              obtain ⟨ps, g1, g2, g3⟩ := ih
              obtain ⟨p, g, rfl⟩ := (key _ _).1 h1
              exact ⟨p :: ps, .cons g g1, congrArg (List.cons _) g2, congrArg (List.cons _) g3⟩
          | _ => rw [hr] at h; cases h
    · rintro ⟨ls, hl, ps, h1, h2, h3⟩
      rw [hl]
      dsimp only
      rw [if_neg (by simp)]
      have : readLines (readSurfaceLine F) ls = .ok (ps.map fun p =>
          (⟨some p.2.2.1, some p.2.2.2.2.1, some p.2.1, some p.1⟩,
            ⟨some p.2.2.2.2.2, some p.2.2.2.1, some p.2.1, some p.1⟩)) := by
        rw [readLines_ok]
        clear hl h2 h3
        induction h1 with
        | nil => exact .nil
        | cons g _ ih => exact .cons ((key _ _).2 ⟨_, g, rfl⟩) ih
      rw [this, Outcome.bind_ok]
      obtain ⟨r, z⟩ := c
      dsimp only at h2 h3
      subst h2 h3
      simp [List.map_map, Function.comp_def]
  · unfold surfaceFromCsv
    split
    · simp [Outcome.Defined]
    · split
      · simp [Outcome.Defined]
      · rename_i ls _ _
        have := readLines_defined (f := readSurfaceLine F) (fun l => by
          unfold readSurfaceLine
          split
          · split
            · split <;> simp [Outcome.Defined]
            · simp [Outcome.Defined]
          · simp [Outcome.Defined]) ls
        cases hr : readLines (readSurfaceLine F) ls with
        | ok qs => simp [Outcome.Defined]
        | ub w => exact absurd hr (this w)
        | _ => simp [Outcome.Defined]

/-- **C116 fails** (errors): a cell that is no number is not reported as an error but ends in an
    exception, although the function returns a status. -/
theorem C116_throws (F : Fmt) (h : F.stoi "x".toList = none) :
    curveFromCsv F "n,raxis_c,zaxis_s,raxis_s,zaxis_c\nx,0,0,0,0\n".toList = .throws "stoi" := by
  have e : getlines "n,raxis_c,zaxis_s,raxis_s,zaxis_c\nx,0,0,0,0\n".toList =
      [curveHeader, "x,0,0,0,0".toList] := by decide +kernel
  have e2 : fields (strip "x,0,0,0,0".toList) =
      ["x".toList, "0".toList, "0".toList, "0".toList, "0".toList] := by decide +kernel
  unfold curveFromCsv
  rw [e]
  dsimp only
  rw [if_neg (by simp)]
  simp only [readLines, readCurveLine, e2, h]
  rfl

/-- **C116 fails** (line ends): blanks at the ends of lines are stripped, but not those of the first
    line, so that a file with carriage returns is rejected; so is one with an empty line. -/
theorem C116_line_ends (F : Fmt) :
    curveFromCsv F "n,raxis_c,zaxis_s,raxis_s,zaxis_c\r\n0,1,0,0,0\r\n".toList =
      .status "header line not found" ∧
    curveFromCsv F "n,raxis_c,zaxis_s,raxis_s,zaxis_c\n\n".toList = .status "cannot parse line" := by
  have e : getlines "n,raxis_c,zaxis_s,raxis_s,zaxis_c\r\n0,1,0,0,0\r\n".toList =
      ["n,raxis_c,zaxis_s,raxis_s,zaxis_c\r".toList, "0,1,0,0,0\r".toList] := by decide +kernel
  constructor
  · unfold curveFromCsv
    rw [e]
    dsimp only
    rw [if_pos (by decide +kernel)]
  · have e3 : getlines "n,raxis_c,zaxis_s,raxis_s,zaxis_c\n\n".toList = [curveHeader, []] := by
      decide +kernel
    have e4 : fields (strip []) = [] := by decide +kernel
    unfold curveFromCsv
    rw [e3]
    dsimp only
    rw [if_neg (by simp)]
    simp only [readLines, readCurveLine, e4]
    rfl

/-! ## The hypotheses are met -/

/-- conversions with numbers written as that many strokes -/
def exFmt : Fmt where
  showI n := List.replicate (Encodable.encode n + 1) 'i'
  num x := List.replicate (Encodable.encode x + 1) 'i'
  stoi s := Encodable.decode (s.length - 1)
  stod s := Encodable.decode (s.length - 1)

theorem stroke_cell (n : Nat) : IsCell (List.replicate (n + 1) 'i') := by
  refine ⟨by simp, fun c hc => ?_⟩
  rw [(List.mem_replicate.1 hc).2]
  decide

example : exFmt.Ok id where
  int_cell _ := stroke_cell _
  num_cell _ := stroke_cell _
  int_back n := by
    show Encodable.decode ((List.replicate _ 'i').length - 1) = _
    rw [List.length_replicate, Nat.add_sub_cancel, Encodable.encodek]
  num_back x := by
    show Encodable.decode ((List.replicate _ 'i').length - 1) = _
    rw [List.length_replicate, Nat.add_sub_cancel, Encodable.encodek]
    rfl

/-- axis with two modes; the second sine coefficient of R is not given -/
def exCurve : Curve := ⟨[⟨some 6, some 0, some 0⟩, ⟨some (1 / 2), none, some 1⟩],
  [⟨some 0, some 0, some 0⟩, ⟨none, some (-1 / 4), some 1⟩]⟩

example : exCurve.Full := by
  refine ⟨by simp [exCurve], .cons ⟨?_, ?_, rfl⟩ (.cons ⟨?_, ?_, rfl⟩ .nil)⟩ <;>
    simp [Coef1.Given]

example : Survives id (some 1) := by
  refine ⟨1, rfl, ?_⟩
  unfold round16
  have : Int.log 10 |(1 : ℚ)| = 0 := by rw [abs_one]; exact Int.log_one_right 10
  rw [this]
  have e : (1 : ℚ) / 10 ^ ((0 : Int) - 15) = ((10 ^ 15 : Int) : ℚ) := by norm_num
  rw [e, round_intCast]
  norm_num

end Verif.Csv
