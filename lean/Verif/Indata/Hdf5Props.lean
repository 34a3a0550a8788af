import Verif.Indata.Hdf5
import Verif.Indata.Text
import Verif.Indata.Reader

/-!
# C67: writing an input to an HDF5 file and loading it
-/
namespace Verif.Indata
open Verif

/-- the strings of the input have no NUL character -/
structure NoNul (d : Indata) : Prop where
  pmass_type : Char.ofNat 0 ∉ d.pmass_type.toList
  piota_type : Char.ofNat 0 ∉ d.piota_type.toList
  pcurr_type : Char.ofNat 0 ∉ d.pcurr_type.toList
  mgrid_file : Char.ofNat 0 ∉ d.mgrid_file.toList

/-- the boundary arrays have the sizes that the resolution asks for -/
structure Shaped (d : Indata) : Prop where
  rbc : Shape d.mpol (2 * d.ntor + 1) d.rbc
  zbs : Shape d.mpol (2 * d.ntor + 1) d.zbs

/-- no asymmetric arrays -/
def NoAsym (d : Indata) : Prop := d.raxis_s = none ∧ d.zaxis_c = none ∧ d.rbs = none ∧ d.zbc = none

/-! ## Helper lemmas -/

theorem cString_eq {s : String} (h : Char.ofNat 0 ∉ s.toList) : cString s = s := by
  have h1 : ∀ l : List Char, Char.ofNat 0 ∉ l → l.takeWhile (fun c => c ≠ Char.ofNat 0) = l := by
    intro l hl
    induction l with
    | nil => rfl
    | cons a l ih =>
      rw [List.mem_cons, not_or] at hl
      rw [List.takeWhile_cons, if_pos (by simpa using fun e => hl.1 e.symm), ih hl.2]
  unfold cString
  rw [h1 _ h, String.ofList_toList]

section
variable {f : File} {name : String}

theorem loadBool_eq {b : Bool} (h : f name = some (.bool b)) : loadBool f name = .ok b := by
  unfold loadBool openDataSet; rw [h]; rfl

theorem loadInt_eq {b : Int} (h : f name = some (.int b)) : loadInt f name = .ok b := by
  unfold loadInt openDataSet; rw [h]; rfl

theorem loadDouble_eq {b : D} (h : f name = some (.double b)) : loadDouble f name = .ok b := by
  unfold loadDouble openDataSet; rw [h]; rfl

theorem loadString_eq {b : String} (h : f name = some (.str b)) : loadString f name = .ok b := by
  unfold loadString openDataSet; rw [h]; rfl

theorem loadInts_eq {b : List Int} (h : f name = some (.ints b)) : loadInts f name = .ok b := by
  unfold loadInts openDataSet; rw [h]; rfl

theorem loadDoubles_eq {b : List D} (h : f name = some (.doubles b)) : loadDoubles f name = .ok b := by
  unfold loadDoubles openDataSet; rw [h]; rfl

theorem loadMatrix_eq {b : Mat D} (h : f name = some (.matrix b)) : loadMatrix f name = .ok b := by
  unfold loadMatrix openDataSet; rw [h]; rfl

theorem loadIntIfPresent_eq {b old : Int} (h : f name = some (.int b)) : loadIntIfPresent f name old = .ok b := by
  unfold loadIntIfPresent
  rw [if_pos (by rw [h]; rfl), loadInt_eq h]

end

section
variable (d : Indata) (rest : List (String × Dataset))

/-- the file -/
def fileOf : File := fun k => (plainDatasets d ++ rest).lookup k

theorem loadResolution_eq (m : Indata) : loadResolution (fileOf d rest) m = .ok { m with
    lasym := d.lasym, nfp := d.nfp, mpol := d.mpol, ntor := d.ntor, mpol_geometry := d.mpol_geometry, ntor_geometry := d.ntor_geometry, ntheta := d.ntheta, nzeta := d.nzeta } := by
  unfold loadResolution
  rw [loadBool_eq (b := d.lasym) rfl, Outcome.bind_ok, loadInt_eq (b := d.nfp) rfl, Outcome.bind_ok, loadInt_eq (b := d.mpol) rfl, Outcome.bind_ok,
    loadInt_eq (b := d.ntor) rfl, Outcome.bind_ok, loadIntIfPresent_eq (b := d.mpol_geometry) rfl, Outcome.bind_ok,
    loadIntIfPresent_eq (b := d.ntor_geometry) rfl, Outcome.bind_ok, loadInt_eq (b := d.ntheta) rfl, Outcome.bind_ok, loadInt_eq (b := d.nzeta) rfl,
    Outcome.bind_ok, Outcome.pure_eq]

theorem loadScalars_eq (m : Indata) : loadScalars (fileOf d rest) m = .ok { m with
    phiedge := d.phiedge, ncurr := d.ncurr, pmass_type := cString d.pmass_type, pres_scale := d.pres_scale, gamma := d.gamma, spres_ped := d.spres_ped
    piota_type := cString d.piota_type, pcurr_type := cString d.pcurr_type, curtor := d.curtor, bloat := d.bloat, lfreeb := d.lfreeb
    mgrid_file := cString d.mgrid_file, nvacskip := d.nvacskip } := by
  unfold loadScalars
  rw [loadDouble_eq (b := d.phiedge) rfl, Outcome.bind_ok, loadInt_eq (b := d.ncurr) rfl, Outcome.bind_ok, loadString_eq (b := cString d.pmass_type) rfl, Outcome.bind_ok,
    loadDouble_eq (b := d.pres_scale) rfl, Outcome.bind_ok, loadDouble_eq (b := d.gamma) rfl, Outcome.bind_ok, loadDouble_eq (b := d.spres_ped) rfl, Outcome.bind_ok,
    loadString_eq (b := cString d.piota_type) rfl, Outcome.bind_ok, loadString_eq (b := cString d.pcurr_type) rfl, Outcome.bind_ok, loadDouble_eq (b := d.curtor) rfl,
    Outcome.bind_ok, loadDouble_eq (b := d.bloat) rfl, Outcome.bind_ok, loadBool_eq (b := d.lfreeb) rfl, Outcome.bind_ok, loadString_eq (b := cString d.mgrid_file) rfl,
    Outcome.bind_ok, loadInt_eq (b := d.nvacskip) rfl, Outcome.bind_ok, Outcome.pure_eq]

theorem loadMethod_eq : loadMethod (fileOf d rest) = .ok d.free_boundary_method := by
  unfold loadMethod
  rw [loadString_eq (b := cString d.free_boundary_method.toString) rfl, Outcome.bind_ok]
  cases d.free_boundary_method <;> decide +kernel

theorem loadStyle_eq : loadStyle (fileOf d rest) = .ok d.iteration_style := by
  unfold loadStyle
  rw [if_pos (show (fileOf d rest "iteration_style").isSome = true from rfl), loadString_eq (b := cString d.iteration_style.toString) rfl, Outcome.bind_ok]
  cases d.iteration_style <;> decide +kernel

theorem loadControl_eq (m : Indata) : loadControl (fileOf d rest) m = .ok { m with
    free_boundary_method := d.free_boundary_method, iteration_style := d.iteration_style, nstep := d.nstep, delt := d.delt, tcon0 := d.tcon0
    lforbal := d.lforbal, return_outputs_even_if_not_converged := d.return_outputs_even_if_not_converged } := by
  unfold loadControl
  rw [loadMethod_eq, Outcome.bind_ok, loadStyle_eq, Outcome.bind_ok, loadInt_eq (b := d.nstep) rfl, Outcome.bind_ok, loadDouble_eq (b := d.delt) rfl,
    Outcome.bind_ok, loadDouble_eq (b := d.tcon0) rfl, Outcome.bind_ok, loadBool_eq (b := d.lforbal) rfl, Outcome.bind_ok]
  unfold loadReturnOutputs
  rw [if_pos (show (fileOf d rest "return_outputs_even_if_not_converged").isSome = true from rfl), loadBool_eq (b := d.return_outputs_even_if_not_converged) rfl, Outcome.bind_ok, Outcome.pure_eq]

theorem loadArrays_eq (m : Indata) : loadArrays (fileOf d rest) m = .ok { m with
    ns_array := d.ns_array, ftol_array := d.ftol_array, niter_array := d.niter_array, am := d.am, am_aux_s := d.am_aux_s, am_aux_f := d.am_aux_f
    ai := d.ai, ai_aux_s := d.ai_aux_s, ai_aux_f := d.ai_aux_f, ac := d.ac, ac_aux_s := d.ac_aux_s, ac_aux_f := d.ac_aux_f
    extcur := d.extcur, aphi := d.aphi, raxis_c := d.raxis_c, zaxis_s := d.zaxis_s } := by
  unfold loadArrays
  rw [loadInts_eq (b := d.ns_array) rfl, Outcome.bind_ok, loadDoubles_eq (b := d.ftol_array) rfl, Outcome.bind_ok, loadInts_eq (b := d.niter_array) rfl, Outcome.bind_ok,
    loadDoubles_eq (b := d.am) rfl, Outcome.bind_ok, loadDoubles_eq (b := d.am_aux_s) rfl, Outcome.bind_ok, loadDoubles_eq (b := d.am_aux_f) rfl, Outcome.bind_ok,
    loadDoubles_eq (b := d.ai) rfl, Outcome.bind_ok, loadDoubles_eq (b := d.ai_aux_s) rfl, Outcome.bind_ok, loadDoubles_eq (b := d.ai_aux_f) rfl, Outcome.bind_ok,
    loadDoubles_eq (b := d.ac) rfl, Outcome.bind_ok, loadDoubles_eq (b := d.ac_aux_s) rfl, Outcome.bind_ok, loadDoubles_eq (b := d.ac_aux_f) rfl, Outcome.bind_ok,
    loadDoubles_eq (b := d.extcur) rfl, Outcome.bind_ok, loadDoubles_eq (b := d.aphi) rfl, Outcome.bind_ok, loadDoubles_eq (b := d.raxis_c) rfl, Outcome.bind_ok,
    loadDoubles_eq (b := d.zaxis_s) rfl, Outcome.bind_ok, Outcome.pure_eq]

theorem loadBoundary_eq {f : File} {name : String} {m : Indata} {a : Mat D} (h : f name = some (.matrix a)) (hs : Shape m.mpol (2 * m.ntor + 1) a) :
    loadBoundary f name m = .ok a := by
  unfold loadBoundary
  rw [loadMatrix_eq h, Outcome.bind_ok]
  have r1 : reject (decide (a.rows ≠ m.mpol)) name = .ok () := (reject_ok_iff _ _).2 (by simp [hs.1])
  have r2 : reject (decide (a.cols ≠ 2 * m.ntor + 1)) name = .ok () := (reject_ok_iff _ _).2 (by simp [hs.2])
  rw [r1, Outcome.bind_ok, r2, Outcome.bind_ok, Outcome.pure_eq]

/-- the members loaded before the asymmetric arrays -/
def loaded (m : Indata) : Indata :=
  { d with pmass_type := cString d.pmass_type, piota_type := cString d.piota_type, pcurr_type := cString d.pcurr_type, mgrid_file := cString d.mgrid_file
           raxis_s := m.raxis_s, zaxis_c := m.zaxis_c, rbc := m.rbc, zbs := m.zbs, rbs := m.rbs, zbc := m.zbc }

theorem loadInto_eq (m : Indata) : loadInto m (fileOf d rest) = (do
    let m ← loadAsymAxis (fileOf d rest) (loaded d m)
    let rbc ← loadBoundary (fileOf d rest) "rbc" m
    let zbs ← loadBoundary (fileOf d rest) "zbs" m
    loadAsymBoundary (fileOf d rest) { m with rbc, zbs }) := by
  unfold loadInto
  rw [loadResolution_eq, Outcome.bind_ok, loadScalars_eq, Outcome.bind_ok, loadControl_eq, Outcome.bind_ok, loadArrays_eq, Outcome.bind_ok]
  rfl

end

/-! ## The property -/

/-- what an input becomes in a file and back in the object `m` -/
def viaFile (m d : Indata) : Outcome Indata := do
  let f ← writeTo d
  loadInto m f

/-- what is loaded for a symmetric input -/
theorem viaFile_symmetric {d : Indata} (m : Indata) (hl : d.lasym = false) (hs : Shaped d) :
    viaFile m d = .ok { loaded d m with rbc := d.rbc, zbs := d.zbs } := by
  unfold viaFile writeTo asymDatasets
  rw [hl, if_neg (by simp), Outcome.pure_eq, Outcome.bind_ok, Outcome.pure_eq, Outcome.bind_ok]
  change loadInto m (fileOf d []) = _
  rw [loadInto_eq]
  unfold loadAsymAxis
  rw [if_neg (show ¬ (loaded d m).lasym = true by show ¬ d.lasym = true; rw [hl]; simp), Outcome.pure_eq, Outcome.bind_ok,
    loadBoundary_eq (a := d.rbc) (m := loaded d m) rfl hs.rbc, Outcome.bind_ok, loadBoundary_eq (a := d.zbs) (m := loaded d m) rfl hs.zbs, Outcome.bind_ok]
  unfold loadAsymBoundary
  rw [if_neg (show ¬ (loaded d m).lasym = true by show ¬ d.lasym = true; rw [hl]; simp), Outcome.pure_eq]

/-- **C67** (partial): a symmetric input is loaded unchanged into an object without asymmetric arrays, whatever else the object held;
NaN and infinities included.  Missing: asymmetric inputs, for which the claim is false, and objects that hold asymmetric arrays. -/
theorem C67_roundtrip_partial {d : Indata} (m : Indata) (hl : d.lasym = false) (hs : Shaped d) (hn : NoNul d) (ha : NoAsym d) (hm : NoAsym m) :
    viaFile m d = .ok d := by
  rw [viaFile_symmetric m hl hs]
  unfold loaded
  rw [cString_eq hn.pmass_type, cString_eq hn.piota_type, cString_eq hn.pcurr_type, cString_eq hn.mgrid_file, hm.1, hm.2.1, hm.2.2.1, hm.2.2.2]
  obtain ⟨a1, a2, a3, a4⟩ := ha
  cases d
  simp only at a1 a2 a3 a4
  subst a1 a2 a3 a4
  rfl

/-- **C67**: the inputs that pass the validation are of this kind, up to NUL characters -/
theorem C67_documented_partial {d : Indata} (m : Indata) (hd : Documented d) (hl : d.lasym = false) (hn : NoNul d) (hm : NoAsym m) : viaFile m d = .ok d :=
  C67_roundtrip_partial m hl ⟨hd.rbc, hd.zbs⟩ hn (hd.sym hl) hm

/-- **C67**, negation: saving and loading any asymmetric input has undefined behaviour: one coefficient is written where the reader
expects an array -/
theorem C67_asymmetric_ub (m : Indata) {d : Indata} (hl : d.lasym = true) : ∃ w, viaFile m d = .ub w := by
  unfold viaFile writeTo asymDatasets
  rw [hl, if_pos rfl]
  cases h1 : d.raxis_s with
  | none => exact ⟨_, rfl⟩
  | some rs =>
    cases rs with
    | nil => exact ⟨_, rfl⟩
    | cons x rs =>
      cases h2 : d.zaxis_c with
      | none => exact ⟨_, rfl⟩
      | some zc =>
        cases zc with
        | nil => exact ⟨_, rfl⟩
        | cons y zc =>
          cases h3 : d.rbs with
          | none => exact ⟨_, rfl⟩
          | some bs =>
            by_cases g1 : 0 < bs.rows ∧ 0 < bs.cols
            · cases h4 : d.zbc with
              | none =>
                change ∃ w, ((eigenValueMat bs >>= _) >>= _) >>= _ = Outcome.ub w
                unfold eigenValueMat
                rw [Mat.get_ok _ _ _ (by omega)]
                exact ⟨_, rfl⟩
              | some bc =>
                by_cases g2 : 0 < bc.rows ∧ 0 < bc.cols
                · change ∃ w, ((eigenValueMat bs >>= _) >>= _) >>= _ = Outcome.ub w
                  unfold eigenValueMat
                  rw [Mat.get_ok _ _ _ (by omega), Outcome.bind_ok]
                  change ∃ w, ((bc.get 0 0 >>= _) >>= _) >>= _ = Outcome.ub w
                  rw [Mat.get_ok _ _ _ (by omega), Outcome.bind_ok, Outcome.pure_eq, Outcome.bind_ok, Outcome.pure_eq, Outcome.bind_ok]
                  change ∃ w, loadInto m (fileOf d _) = .ub w
                  rw [loadInto_eq]
                  unfold loadAsymAxis
                  rw [if_pos (show (loaded d m).lasym = true from hl)]
                  exact ⟨_, rfl⟩
                · change ∃ w, ((eigenValueMat bs >>= _) >>= _) >>= _ = Outcome.ub w
                  unfold eigenValueMat
                  rw [Mat.get_ok _ _ _ (by omega), Outcome.bind_ok]
                  change ∃ w, ((bc.get 0 0 >>= _) >>= _) >>= _ = Outcome.ub w
                  unfold Mat.get
                  rw [if_neg (by omega)]
                  exact ⟨_, rfl⟩
            · change ∃ w, ((eigenValueMat bs >>= _) >>= _) >>= _ = Outcome.ub w
              unfold eigenValueMat Mat.get
              rw [if_neg (by omega)]
              exact ⟨_, rfl⟩

/-- the sample input survives -/
example : viaFile init sample = .ok sample :=
  C67_documented_partial init sample_documented rfl ⟨by decide +kernel, by decide +kernel, by decide +kernel, by decide +kernel⟩ ⟨rfl, rfl, rfl, rfl⟩

/-- the file of the sample input has the plasma boundary as a matrix -/
example : ∃ f, writeTo sample = .ok f ∧ f "rbc" = some (.matrix sample.rbc) ∧ f "raxis_s" = none := by
  refine ⟨_, rfl, ?_, ?_⟩ <;> rfl

/-- an accepted asymmetric input -/
example : isConsistent sampleAsym false = .ok () ∧ sampleAsym.lasym = true := ⟨(C23_ok_iff _ _).2 sampleAsym_documented, rfl⟩

/-- the objects that are missing: asymmetric arrays that the object held before stay in it, and the input that was loaded no longer
passes the validation -/
theorem C67_stale_arrays : ∃ m d d' : Indata, isConsistent m false = .ok () ∧ isConsistent d false = .ok () ∧ viaFile m d = .ok d' ∧ d' ≠ d ∧
    isConsistent d' false = .status "raxis_s" := by
  refine ⟨sampleAsym, sample, { sample with raxis_s := sampleAsym.raxis_s, zaxis_c := sampleAsym.zaxis_c, rbs := sampleAsym.rbs, zbc := sampleAsym.zbc },
    by decide +kernel, by decide +kernel, rfl, ?_, by decide +kernel⟩
  intro h
  have := congrArg Indata.raxis_s h
  simp [sample, sampleAsym, init] at this

/-- an input with a NUL character in a file name -/
def sampleNul : Indata := { sample with mgrid_file := "a\x00b" }

/-- the strings that are missing: text after a NUL character is lost -/
theorem C67_nul_truncated : ∃ d', viaFile init sampleNul = .ok d' ∧ d'.mgrid_file = "a" ∧ d' ≠ sampleNul := by
  refine ⟨_, viaFile_symmetric (d := sampleNul) init rfl ⟨sample_documented.rbc, sample_documented.zbs⟩, ?_, fun h => ?_⟩
  · decide +kernel
  · exact absurd (congrArg Indata.mgrid_file h) (by decide +kernel)

end Verif.Indata
