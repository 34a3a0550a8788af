import Verif.PyOutput.NetcdfProps

/-!
# C97: values that are not read back, and a file to which the round trip applies
-/
namespace Verif.PyOutput
open Verif

variable {D : Dbl}

/-- one field of type array of doubles with one dimension -/
def vec (name dim : String) (a : Arr D.F) : Field D.F := ⟨name, .arr, none, some [dim], .arr a⟩

theorem dim_preset : dimName "_preset" = "preset" := by decide +kernel
theorem dim_time : dimName "time" = "time" := by decide +kernel
theorem dim_radius : dimName "n_surfaces" = "radius" := by decide +kernel
theorem dim_ext : dimName "ext_current" = "ext_current" := by decide +kernel

/-- two vectors on the same dimension, the longer one first: what the file holds -/
theorem save_two (t d : String) (hd : dimName t = d) (h1 : d ≠ "mn_mode_pot") (h2 : d ≠ "current_label") (h3 : d ≠ "dim_00006") {na nb : String} (hn : na ≠ nb) (a b : Arr D.F) {m n : ℕ}
    (ha : a.shape = [m]) (hb : b.shape = [n]) (hm : 0 < m) (hle : n ≤ m) :
    ∃ f, save D [vec na t a, vec nb t b] = .ok f ∧ f.dims d = some m ∧ (attrs D f).lookup nb = some (.arr { isInt := b.isInt, shape := [m], get := cells1 D b n }) := by
  have hm0 : m ≠ 0 := by omega
  refine ⟨{ dims := fun x => if x = d then some m else (newFile D).dims x, unlim := none, vars := [(na, .nums [d] a.isInt (cells1 D a m)), (nb, .nums [d] b.isInt (cells1 D b n))] }, ?_, by simp, ?_⟩
  · simp [save, saveFields, saveField, vec, dump, shapeString, hd, ha, hb, Outcome.bind, NcFile.ensureAll, NcFile.ensure, NcFile.createDimension, NcFile.create, newFile, h1, h2, h3, hm0, hn, hle]
  · simp [attrs, loadVar, List.lookup_cons, hn.symm, beq_eq_false_iff_ne.2 hn.symm]

/-- **C97 fails** for profiles of different lengths: `am` and `ac` share the dimension `preset` (1214-1221).  If `am` has more coefficients than `ac`, `ac` is read back with the length of `am`, and the
    elements behind its end are NetCDF fill values; in the other order saving raises an error. -/
theorem C97_padding_fails (a b : Arr D.F) (hbf : b.isInt = false) {m n : ℕ} (ha : a.shape = [m]) (hb : b.shape = [n]) (hn : 0 < n) (hlt : n < m) :
    (∃ f r, save D [vec "am" "_preset" a, vec "ac" "_preset" b] = .ok f ∧ (attrs D f).lookup "ac" = some (.arr r) ∧ r.shape = [m] ∧ (∀ k, n ≤ k → r.get [k] = .f D.fill) ∧ ¬ r.Same b) ∧
      save D [vec "am" "_preset" b, vec "ac" "_preset" a] = .throws "shape mismatch" := by
  refine ⟨?_, ?_⟩
  · obtain ⟨f, e, _, h⟩ := save_two "_preset" "preset" dim_preset (by decide) (by decide) (by decide) (na := "am") (nb := "ac") (by decide) a b ha hb (by omega) hlt.le
    refine ⟨f, _, e, h, rfl, fun k hk => ?_, fun hs => ?_⟩
    · simp only [cells1]
      rw [if_neg (by omega), hbf]; rfl
    · have := hs.2.1
      rw [hb] at this
      simp at this
      omega
  · have hn0 : n ≠ 0 := by omega
    have hlt' : ¬ m ≤ n := by omega
    simp [save, saveFields, saveField, vec, dump, shapeString, dim_preset, ha, hb, Outcome.bind, NcFile.ensureAll, NcFile.ensure, NcFile.createDimension, NcFile.create, newFile, hn0, hlt']

/-- **C97 fails** for empty histories: a file of another code has `fsqt` but not `force_residual_r`, whose default is the empty array on the same dimension `time` (998-1008).  After saving and loading,
    it has as many elements as `fsqt`, all of them fill values (`9.97e36`). -/
theorem C97_empty_fails (a b : Arr D.F) (hbf : b.isInt = false) {m : ℕ} (ha : a.shape = [m]) (hb : b.shape = [0]) (hm : 0 < m) :
    ∃ f r, save D [vec "fsqt" "time" a, vec "force_residual_r" "time" b] = .ok f ∧ (attrs D f).lookup "force_residual_r" = some (.arr r) ∧ r.shape = [m] ∧ ∀ k, r.get [k] = .f D.fill := by
  obtain ⟨f, e, _, h⟩ := save_two "time" "time" dim_time (by decide) (by decide) (by decide) (na := "fsqt") (nb := "force_residual_r") (by decide) a b ha hb hm (Nat.zero_le _)
  refine ⟨f, _, e, h, rfl, fun k => ?_⟩
  simp only [cells1]
  rw [if_neg (by omega), hbf]; rfl

/-- **C97 fails** for two empty arrays on different dimensions: both dimensions would be unlimited, which the format does not allow, and saving raises an error. -/
theorem C97_two_empty_fails (a b : Arr D.F) (ha : a.shape = [0]) (hb : b.shape = [0]) : save D [vec "am" "_preset" a, vec "fsqt" "time" b] = .throws "NC_UNLIMITED size already in use" := by
  simp [save, saveFields, saveField, vec, dump, shapeString, dim_preset, dim_time, ha, hb, Outcome.bind, NcFile.ensureAll, NcFile.ensure, NcFile.createDimension, NcFile.create, newFile]

/-- **C97 fails** for the default of `currumnc` and `currvmnc` (1117-1126): the default is an array of one dimension but the declared type has two, so a file without the currents can be loaded but never
    saved again, whatever else is in it. -/
theorem C97_default_fails (f : NcFile D.F) (a : Arr D.F) (ha : a.shape = [0]) : saveField D ⟨"currumnc", .arr, none, some ["mn_mode_nyq", "n_surfaces"], .arr a⟩ f = .throws "ValueError" := by
  simp [saveField, dump, shapeString, ha, Outcome.bind]

/-- **C97 fails** for the path of the `mgrid` file if it has characters that are not ASCII: saving raises an error, whatever else is in the file; so the result of a run cannot be saved. -/
theorem C97_ascii_fails (f : NcFile D.F) (s : List ℕ) (h : ∃ x ∈ s, 128 ≤ x) (hd : f.dims "dim_00200" = some 200) :
    saveField D ⟨"mgrid_file", .str, some 200, none, .str s⟩ f = .throws "UnicodeEncodeError" := by
  obtain ⟨x, hx, h128⟩ := h
  have e : dimDefault 200 = "dim_00200" := by decide +kernel
  have hall : ¬ ∀ x ∈ s, x < 128 := fun hc => absurd (hc x hx) (by omega)
  simp [saveField, dump, Outcome.bind, NcFile.ensure, e, hd, hall]

/-- **C97 fails** for strings with white space at the ends: `" a"` is read back as `"a"`. -/
theorem C97_strip_fails : ∃ f, save D [⟨"input_extension", .str, some 2, none, .str [32, 97]⟩] = .ok f ∧ (attrs D f).lookup "input_extension" = some (.str [97]) := by
  have e : dimDefault 2 = "dim_00002" := by decide +kernel
  refine ⟨{ dims := fun x => if x = "dim_00002" then some 2 else (newFile D).dims x, unlim := none, vars := [("input_extension", .chars "dim_00002" [32, 97])] }, ?_, ?_⟩
  · simp [save, saveFields, saveField, dump, Outcome.bind, NcFile.ensure, e, newFile, NcFile.createDimension, NcFile.create]
  · simp [attrs, loadVar, stripBy, isSpace]

/-! ## a case -/

/-- doubles that are rational numbers -/
def ratDbl : Dbl where
  F := ℚ
  ofInt := fun n => n
  toInt := fun q => q.num.tdiv q.den
  fill := 10 ^ 36
  zero := 0
  nan := 0
  le8 := fun q => q ≤ 8

/-- sizes of the dimensions -/
def caseSize (s : String) : ℕ :=
  if s = "mn_mode_pot" then 100 else if s = "current_label" then 30 else if s = "dim_00006" then 6 else if s = "dim_00200" then 200 else if s = "radius" then 3 else if s = "mn_mode" then 2
  else if s = "time" then 4 else 1

/-- an array of one dimension -/
def arr1 (n : ℕ) (v : ℕ → ℚ) : Arr ratDbl.F := { isInt := false, shape := [n], get := fun i => match i with | [k] => .f (v k) | _ => .f (0 : ℚ) }
/-- an array of two dimensions -/
def arr2 (n m : ℕ) (v : ℕ → ℕ → ℚ) : Arr ratDbl.F := { isInt := false, shape := [n, m], get := fun i => match i with | [k, l] => .f (v k l) | _ => .f (0 : ℚ) }
/-- an array of integers -/
def arrI (n : ℕ) (v : ℕ → Int) : Arr ratDbl.F := { isInt := true, shape := [n], get := fun i => match i with | [k] => .i (v k) | _ => .i 0 }

/-- fields of a small `wout` file -/
def caseFile : List (Field ratDbl.F) :=
  [⟨"mnmax", .int, none, none, .int 2⟩, ⟨"ns", .int, none, none, .int 3⟩, ⟨"lasym__logical__", .bool, none, none, .bool false⟩, ⟨"version_", .float, none, none, .float (9 : ℚ)⟩,
    ⟨"mgrid_file", .str, some 200, none, .str [78, 79, 78, 69]⟩, ⟨"lrfp__logical__", .bool, none, none, .bool true⟩, ⟨"presf", .arr, none, some ["n_surfaces"], .arr (arr1 3 fun k => k + 1 / 2)⟩,
    ⟨"xm", .intAsFloat, none, some ["mn_mode"], .arr (arrI 2 fun k => k - 5)⟩, ⟨"restart_reasons", .intArr, none, some ["time"], .arr (arrI 4 fun k => 1 - k)⟩,
    ⟨"lmns_full", .arr, none, some ["mn_mode", "n_surfaces"], .arr (arr2 2 3 fun k l => k * 10 - l)⟩, ⟨"rmns", .optArr, none, some ["mn_mode", "n_surfaces"], .none⟩,
    ⟨"extcur", .extcur, none, some ["ext_current"], .arr (arr1 0 fun _ => 0)⟩]

theorem rat_exact (n : Int) : ratDbl.toInt (ratDbl.ofInt n) = n := by simp [ratDbl]

theorem floats1 (n : ℕ) (v : ℕ → ℚ) : Floats (D := ratDbl) (arr1 n v) :=
  ⟨rfl, fun i hi => by
    cases hi with
    | cons h t => cases t; exact ⟨_, rfl⟩⟩
theorem floats2 (n m : ℕ) (v : ℕ → ℕ → ℚ) : Floats (D := ratDbl) (arr2 n m v) :=
  ⟨rfl, fun i hi => by
    cases hi with
    | cons h t => cases t with
      | cons h' t' => cases t'; exact ⟨_, rfl⟩⟩
theorem ints1 (b : Int) (n : ℕ) (v : ℕ → Int) (h : ∀ k < n, -b ≤ v k ∧ v k < b) : Ints (D := ratDbl) b (arrI n v) :=
  ⟨rfl, fun i hi => by
    cases hi with
    | @cons k _ _ _ hk t => cases t; exact ⟨_, rfl, h k hk⟩⟩

theorem case_fits : ∀ c ∈ caseFile, Fits caseSize c := by
  have em : dimName "mn_mode" = "mn_mode" := by decide +kernel
  have e2 : dimDefault 200 = "dim_00200" := by decide +kernel
  intro c hc
  simp only [caseFile, List.mem_cons, List.not_mem_nil, or_false] at hc
  rcases hc with rfl | rfl | rfl | rfl | rfl | rfl | rfl | rfl | rfl | rfl | rfl | rfl
  · exact ⟨by norm_num, by norm_num⟩
  · exact ⟨by norm_num, by norm_num⟩
  · trivial
  · trivial
  · refine ⟨by decide, ?_, by decide, by decide, ?_⟩
    · rintro x (h | h) <;> simp at h <;> subst h <;> decide
    · show caseSize (dimDefault 200) = 200
      rw [e2]; decide
  · trivial
  · exact ⟨floats1 _ _, Or.inl rfl, [_], rfl, rfl, .cons ⟨by rw [dim_radius]; decide, by decide⟩ .nil⟩
  · exact ⟨ints1 _ _ _ (fun k hk => by constructor <;> norm_num <;> omega), Or.inl rfl, [_], rfl, rfl, .cons ⟨by rw [em]; decide, by decide⟩ .nil⟩
  · exact ⟨ints1 _ _ _ (fun k hk => by constructor <;> norm_num <;> omega), Or.inl rfl, [_], rfl, rfl, .cons ⟨by rw [dim_time]; decide, by decide⟩ .nil⟩
  · exact ⟨floats2 _ _ _, Or.inr rfl, [_, _], rfl, rfl, .cons ⟨by rw [em]; decide, by decide⟩ (.cons ⟨by rw [dim_radius]; decide, by decide⟩ .nil)⟩
  · trivial
  · exact ⟨floats1 _ _, Or.inl rfl⟩

/-- the hypotheses of `C97_roundtrip_partial` and `C97_load_partial` are met by `caseFile` -/
example : ∃ f a, save ratDbl caseFile = .ok f ∧ fromFile ratDbl f = .ok a ∧ (∀ c ∈ caseFile, c.present → ∃ r u, a.lookup c.name = some r ∧ validate ratDbl c.kind r = some u ∧ u.Same c.val) ∧
    ∀ n, (∀ c ∈ caseFile, c.present → c.name ≠ n) → a.lookup n = none :=
  C97_load_partial (fun n _ _ => rat_exact n) (by decide) (by decide) (by decide) caseFile (by decide +kernel) case_fits
    ⟨_, List.mem_cons_self .., rfl, rfl, 2, by norm_num, rfl⟩ ⟨_, List.mem_cons_of_mem _ (List.mem_cons_self ..), rfl, rfl, 3, by norm_num, rfl⟩ (lasym := false)
    ⟨⟨"lasym__logical__", .bool, none, none, .bool false⟩, by simp [caseFile], rfl, rfl, rfl⟩
    ⟨⟨"version_", .float, none, none, .float (9 : ℚ)⟩, by simp [caseFile], rfl, rfl, (9 : ℚ), rfl, by show decide ((9 : ℚ) ≤ 8) = false; norm_num⟩
    ⟨⟨"lmns_full", .arr, none, some ["mn_mode", "n_surfaces"], .arr (arr2 2 3 fun k l => k * 10 - l)⟩, by simp [caseFile], rfl, rfl⟩
    ⟨⟨"lrfp__logical__", .bool, none, none, .bool true⟩, by simp [caseFile], rfl, rfl⟩ (by simp)

/-- a file of version 7 with nothing but the sizes, the symmetry and one residual -/
def oldFile : NcFile ratDbl.F where
  dims := fun _ => none
  unlim := none
  vars := [("mnmax", .nums [] true fun _ => .i 2), ("ns", .nums [] true fun _ => .i 3), ("lasym__logical__", .nums [] true fun _ => .i 0), ("version_", .nums [] false fun _ => .f (7 : ℚ)),
    ("fsqz", .nums [] false fun _ => .f (1 / 10 : ℚ))]

/-- the hypotheses of `C97_defaults` are met by `oldFile`: the residual of the file is kept, the other ones are unknown -/
example : ∃ a, fromFile ratDbl oldFile = .ok a ∧ a.lookup "ftolv" = some (.float ratDbl.nan) ∧ a.lookup "lrfp__logical__" = some (.int 0) ∧ a.lookup "lmnc_full" = none ∧
    ∃ r, a.lookup "fsqz" = some (.arr r) ∧ r.get [] = .f (1 / 10 : ℚ) := by
  obtain ⟨a, h1, h2⟩ := C97_defaults oldFile ⟨true, [], fun _ => .i 2⟩ ⟨true, [], fun _ => .i 3⟩ ⟨true, [], fun _ => .i 0⟩ ⟨false, [], fun _ => .f (7 : ℚ)⟩ 2 3 0 (7 : ℚ) (by norm_num) (by norm_num)
    rfl rfl rfl rfl rfl rfl rfl rfl rfl rfl
  have hv : ratDbl.le8 (7 : ℚ) = true := by show decide ((7 : ℚ) ≤ 8) = true; norm_num
  rw [hv] at h2
  refine ⟨a, h1, ?_, ?_, ?_, ?_⟩
  · rw [h2]; rfl
  · rw [h2]; rfl
  · rw [h2]; rfl
  · refine ⟨⟨false, [], fun _ => .f (1 / 10 : ℚ)⟩, ?_, rfl⟩
    rw [h2]; rfl

end Verif.PyOutput
