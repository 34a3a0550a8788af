import Verif.ParFor.Machine
import Verif.Output.Nyquist
import Verif.Makegrid.Model

/-!
# The worksharing loops outside of the solver

`vmec/output_quantities/output_quantities.cc:4703-4714` (`|B|`), `4771-5043` (Nyquist transforms of the half-grid fields), `5082-5182` (of `B_s`
on the full grid) and `common/makegrid_lib/makegrid_lib.cc:371-388`, `392-411` (field), `718-734`, `739-761` (vector potential).

Shared locations are the elements of the arrays the loops access; the tables and index arrays that nobody writes during the loops are
parameters. The private memory of a thread holds the locals of the loop body and the work arrays `Fc_*`, `Fs_*` that are declared in the
parallel region and outlive an iteration. Without OpenMP the same text is executed by one thread.
-/
namespace Verif.ParFor
open Verif Verif.Output Verif.Fourier

/-! ## `|B|` on the half grid -/

/-- locations of the first loop -/
inductive BLoc where
  | total_pressure (i : Int) | presH (j : Int) | magnetic_pressure (i : Int)
  deriving DecidableEq

inductive BReg where
  | total_pressure | presH | value
  deriving DecidableEq

/-- one surface, `output_quantities.cc:4706-4713` -/
noncomputable def absBody (s : Sizes.Sizes) (jH : Int) : List (Op BLoc BReg ℝ) :=
  (irange 0 s.nZnT).flatMap fun kl =>
    let idx_kl := jH * s.nZnT + kl
    [.load .total_pressure (.total_pressure idx_kl), .load .presH (.presH jH),
     .set .value (fun r => Real.sqrt (2 * |r .total_pressure - r .presH|)), .store (.magnetic_pressure idx_kl) .value]

/-! ## Nyquist transforms -/

/-- the fields; for the full grid only `bsubs` (standing for `bsubs_full`) -/
inductive Field where
  | gsqrt | absB | bsubu | bsubv | bsupu | bsupv | bsubs
  deriving DecidableEq

/-- order of the accumulations, `output_quantities.cc:4902-4915` -/
def Field.all : List Field := [.gsqrt, .absB, .bsubu, .bsubv, .bsupu, .bsupv, .bsubs]

inductive NLoc where
  /-- element of the field in real space -/
  | field (q : Field) (i : Int)
  /-- element of the coefficient matrix; `asym` for the matrix that is filled only with `lasym` -/
  | out (q : Field) (asym : Bool) (mn col : Int)
  deriving DecidableEq

inductive NReg where
  /-- value at the point and at the reflected point -/
  | x (q : Field) | rev (q : Field)
  /-- `fc_*`, `fs_*`, `fc_*_a`, `fs_*_a` -/
  | part (q : Field) (sine asym : Bool)
  /-- element of `Fc_*`, `Fs_*`, `Fc_*_a`, `Fs_*_a` -/
  | work (q : Field) (sine asym : Bool) (i : Int)
  /-- `acc_*` -/
  | acc (q : Field) (asym : Bool)
  deriving DecidableEq

section
variable (s : Sizes.Sizes)

/-- the parts that are accumulated -/
def parities : List Bool := if s.lasym then [false, true] else [false]

/-- sign of the reflected value: `+` in the symmetric part, `-` in the antisymmetric part, reversed for `bsubs`,
    `output_quantities.cc:4867-4884` and `5125-5126` -/
def reflSign (q : Field) (asym : Bool) : ℝ := if (q = .bsubs) = (asym = true) then 1 else -1

/-- one point, `output_quantities.cc:4835-4915` and `5114-5133`. The fields are treated one after the other instead of side by side;
    their accumulators do not interact. -/
noncomputable def pointOps (j m k l : Int) (q : Field) : List (Op NLoc NReg ℝ) :=
  let ml := m * s.nThetaReduced + l
  let k_rev := (s.nZeta - k).tmod s.nZeta
  let l_rev := (s.nThetaEff - l).tmod s.nThetaEff
  [.load (.x q) (.field q ((j * s.nZeta + k) * s.nThetaEff + l))] ++
  (if s.lasym then [.load (.rev q) (.field q ((j * s.nZeta + k_rev) * s.nThetaEff + l_rev))] else []) ++
  (parities s).flatMap fun a =>
    let v := fun r : NReg → ℝ => if s.lasym then 1 / 2 * (r (.x q) + reflSign q a * r (.rev q)) else r (.x q)
    [.set (.part q false a) (fun r => r (.part q false a) + cosmuiNyq s ml * v r),
     .set (.part q true a) (fun r => r (.part q true a) + (polTables fastPoloidal s ml).sinmui * v r)]

/-- poloidal sums for one `(m, k)` and one field, `output_quantities.cc:4815-4946` and `5109-5139` -/
noncomputable def poloidalOps (j m k : Int) (q : Field) : List (Op NLoc NReg ℝ) :=
  ((parities s).flatMap fun a => [.set (.part q false a) (fun _ => 0), .set (.part q true a) (fun _ => 0)]) ++
  ((irange 0 s.nThetaReduced).flatMap fun l => pointOps s j m k l q) ++
  ((parities s).flatMap fun a =>
    [.set (.work q false a (m * s.nZeta + k)) (fun r => r (.part q false a)), .set (.work q true a (m * s.nZeta + k)) (fun r => r (.part q true a))])

/-- toroidal sum of one coefficient, `output_quantities.cc:4949-5038` and `5146-5175`: the kernel is `cos(mu - nv)` for the symmetric part and
    `sin(mu - nv)` for the antisymmetric one, reversed for `bsubs` -/
noncomputable def toroidalOps (xm xn : Int → Int) (shift j mn : Int) (a : Bool) (q : Field) : List (Op NLoc NReg ℝ) :=
  let m := xm mn
  let n := (xn mn).tdiv s.nfp
  [.set (.acc q a) (fun _ => 0)] ++
  ((irange 0 s.nZeta).flatMap fun k =>
    let kn := k * (s.nnyq2 + 1) + |n|
    let idx_mk := m * s.nZeta + k
    if (q = .bsubs) = (a = true) then
      [.set (.acc q a) fun r => r (.acc q a) +
        (cosnvNyq s s.nfp kn * r (.work q false a idx_mk) + n.sign * (torTables fastPoloidal s s.nfp kn).sinnv * r (.work q true a idx_mk))]
    else
      [.set (.acc q a) fun r => r (.acc q a) +
        (cosnvNyq s s.nfp kn * r (.work q true a idx_mk) - n.sign * (torTables fastPoloidal s s.nfp kn).sinnv * r (.work q false a idx_mk))]) ++
  [.set (.acc q a) (fun r => nyqMult s m n * r (.acc q a)), .store (.out q a mn (j + shift)) (.acc q a)]

/-- `std::fill` of the work arrays, `output_quantities.cc:5099-5104` (full grid only) -/
def clearOps (qs : List Field) : List (Op NLoc NReg ℝ) :=
  qs.flatMap fun q => (parities s).flatMap fun a => (irange 0 ((s.mnyq + 1) * s.nZeta)).flatMap fun i =>
    [.set (.work q false a i) (fun _ => 0), .set (.work q true a i) (fun _ => 0)]

/-- poloidal sums of one surface -/
noncomputable def phase1 (qs : List Field) (j : Int) : List (Op NLoc NReg ℝ) :=
  (irange 0 (s.mnyq + 1)).flatMap fun m => (irange 0 s.nZeta).flatMap fun k => qs.flatMap fun q => poloidalOps s j m k q

/-- toroidal sums of one surface -/
noncomputable def phase2 (xm xn : Int → Int) (shift : Int) (qs : List Field) (j : Int) : List (Op NLoc NReg ℝ) :=
  (irange 0 s.mnmax_nyq).flatMap fun mn => (parities s).flatMap fun a => qs.flatMap fun q => toroidalOps s xm xn shift j mn a q

/-- one half-grid surface, `output_quantities.cc:4812-5039`; the work arrays keep the values of the previous surface of the thread -/
noncomputable def halfBody (xm xn : Int → Int) (jH : Int) : List (Op NLoc NReg ℝ) :=
  phase1 s Field.all jH ++ phase2 s xm xn 1 Field.all jH

/-- one full-grid surface, `output_quantities.cc:5098-5177` -/
noncomputable def fullBody (xm xn : Int → Int) (jF : Int) : List (Op NLoc NReg ℝ) :=
  clearOps s [.bsubs] ++ phase1 s [.bsubs] jF ++ phase2 s xm xn 0 [.bsubs] jF

end

/-! ## response tables -/

inductive GLoc where
  /-- column of `magnetic_field` (or `vector_potential`): Cartesian components at an evaluation point -/
  | field (i : Int)
  /-- elements `i` of the arrays of the three cylindrical components, which are accessed together -/
  | table (i : Int)
  deriving DecidableEq

inductive GReg where
  | value
  deriving DecidableEq

section
open Verif.Makegrid
variable (par : Makegrid.Params)

/-- one evaluation point, `makegrid_lib.cc:376-384,387` and `721-733`; the third component is copied in the loop as in the vector-potential
    routine (in the field routine it is copied after the loop) -/
noncomputable def convertBody (i : Int) : List (Op GLoc GReg (Option V)) :=
  [.load .value (.field i),
   .set .value (fun r => (r .value).map
     (toCyl (cosPhi par) (sinPhi par) (i.tdiv (par.number_of_z_grid_points * par.number_of_r_grid_points)))),
   .store (.table i) .value]

/-- one mirrored point, `makegrid_lib.cc:395-410` and `742-760` -/
def mirrorBody (i : Int) : List (Op GLoc GReg (Option V)) :=
  [.load .value (.table (reversed par i)), .set .value (fun r => (r .value).map mirrored), .store (.table i) .value]

end
end Verif.ParFor
