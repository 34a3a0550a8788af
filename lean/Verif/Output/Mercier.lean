import Verif.Output.Jxb

/-! # Model of the Mercier stability output
(`vmec/output_quantities/output_quantities.cc:2844-3200`)

Exact reals.  Every array has its own loop; in the code they share loops.  A surface with `vp_full = 0` is skipped in the first table, as
in the code.  Array bounds are not modelled. -/
namespace Verif.Output
open Verif

/-- what the two functions read -/
structure MercierIn where
  s : Sizes.Sizes
  ns : Int
  deltaS : ℝ
  mu_0 : ℝ
  sign_of_jacobian : ℝ
  R : Results
  bdotk : Int → ℝ

namespace MercierIn
variable (I : MercierIn)

/-- value of a half-grid field -/
def h (c : GridH) (jH kl : Int) : ℝ := I.R.gridH c (jH * I.s.nZnT + kl)
/-- `s.wInt[l]` with `l = kl % nThetaEff` -/
noncomputable def w (kl : Int) : ℝ := Sizes.wInt I.s (kl.tmod I.s.nThetaEff)
/-- an array set on the half-grid surfaces, 2904 -/
noncomputable def overHalf (v : Int → ℝ) : Int → ℝ := forRange 0 (I.ns - 1) (fun jH a => upd a jH (v jH)) (fun _ => 0)
/-- an array set on the interior full-grid surfaces, 2929 -/
noncomputable def overFull (v : Int → ℝ) : Int → ℝ := forRange 1 (I.ns - 1) (fun jF a => upd a jF (v jF)) (fun _ => 0)

/-- 2908-2910 -/
noncomputable def phip_realH : Int → ℝ := I.overHalf (fun jH => 2 * Real.pi * I.R.profH .phipH jH * I.sign_of_jacobian)
/-- 2913-2915 -/
noncomputable def vp_real : Int → ℝ := I.overHalf (fun jH => I.sign_of_jacobian * (4 * Real.pi * Real.pi) * I.R.profH .dVdsH jH / I.phip_realH jH)
/-- 2918-2925 -/
noncomputable def torcur : Int → ℝ := I.overHalf (fun jH =>
  let t := forRange 0 I.s.nZnT (fun kl acc => acc + I.R.gridH .bsubu (jH * I.s.nZnT + kl) * I.w kl) 0
  t * (I.sign_of_jacobian * 2 * Real.pi))
/-- 2933-2936 -/
noncomputable def phip_realF : Int → ℝ := I.overFull (fun jF => (I.phip_realH jF + I.phip_realH (jF - 1)) / 2)
/-- 2937 -/
noncomputable def denom (jF : Int) : ℝ := I.phip_realF jF * I.deltaS
/-- 2940-2942 -/
noncomputable def shear : Int → ℝ := I.overFull (fun jF => (I.R.profH .iotaH jF - I.R.profH .iotaH (jF - 1)) / I.denom jF)
/-- 2945-2947 -/
noncomputable def vpp : Int → ℝ := I.overFull (fun jF => (I.vp_real jF - I.vp_real (jF - 1)) / I.denom jF)
/-- 2950-2952 -/
noncomputable def d_pressure_d_s : Int → ℝ := I.overFull (fun jF => (I.R.profH .presH jF - I.R.profH .presH (jF - 1)) / I.denom jF)
/-- 2955-2957 -/
noncomputable def d_toroidal_current_d_s : Int → ℝ := I.overFull (fun jF => (I.torcur jF - I.torcur (jF - 1)) / I.denom jF)

/-- the first value of `gsqrt_full`, 2967-2972 -/
noncomputable def gsqrtMid (jF kl : Int) : ℝ := (I.h .gsqrt jF kl + I.h .gsqrt (jF - 1) kl) / 2
/-- 2977-2979 -/
noncomputable def bdotj (jF kl : Int) : ℝ := I.bdotk (jF * I.s.nZnT + kl) * I.mu_0 / I.gsqrtMid jF kl
/-- the final value of `gsqrt_full`, 2981-2982 -/
noncomputable def gsqrt_full (jF kl : Int) : ℝ := I.gsqrtMid jF kl / I.phip_realF jF

/-- 2985 -/
noncomputable def sOf (jF : Int) : ℝ := jF * I.deltaS
/-- `rtf`, `ztf`, ...: even part plus `sqrtSF` times odd part, 2992-3009 -/
noncomputable def full (e o : GridF) (jF kl : Int) : ℝ :=
  let sqrtSF := Real.sqrt (I.sOf jF)
  I.R.gridF e (jF * I.s.nZnT + kl) + sqrtSF * I.R.gridF o (jF * I.s.nZnT + kl)

/-- 2988-3022 -/
noncomputable def gpp (jF kl : Int) : ℝ :=
  let rtf := I.full .ru_e .ru_o jF kl
  let ztf := I.full .zu_e .zu_o jF kl
  let rzf := I.full .rv_e .rv_o jF kl
  let zzf := I.full .zv_e .zv_o jF kl
  let r1f := I.full .r_e .r_o jF kl
  let gtt := rtf * rtf + ztf * ztf
  let gpp_numerator := I.gsqrt_full jF kl * I.gsqrt_full jF kl
  let gpp_denominator_ingredient := rtf * zzf - rzf * ztf
  let gpp_denominator := gtt * r1f * r1f + gpp_denominator_ingredient * gpp_denominator_ingredient
  gpp_numerator / gpp_denominator

/-- 3028-3039 -/
noncomputable def b2 (jH kl : Int) : ℝ := 2 * (I.h .total_pressure jH kl - I.R.profH .presH jH)
/-- 3052-3054 -/
noncomputable def b2i (jF kl : Int) : ℝ := (I.b2 jF kl + I.b2 (jF - 1) kl) / 2

/-- an accumulation over a surface, scaled by `(2 pi)²` (3046-3081) -/
noncomputable def surf (f : Int → Int → ℝ) : Int → ℝ := I.overFull (fun jF =>
  forRange 0 I.s.nZnT (fun kl acc => acc + f jF kl * I.w kl) 0 * (4 * Real.pi * Real.pi))

/-- 3057-3058 -/
noncomputable def tpp : Int → ℝ := I.surf (fun jF kl => I.gsqrt_full jF kl / I.b2i jF kl)
/-- 3061-3064 -/
noncomputable def tbb : Int → ℝ := I.surf (fun jF kl => I.b2i jF kl * I.gsqrt_full jF kl * I.gpp jF kl)
/-- 3067-3070 -/
noncomputable def tjb : Int → ℝ := I.surf (fun jF kl => I.bdotj jF kl * I.gpp jF kl * I.gsqrt_full jF kl)
/-- 3073-3075 -/
noncomputable def tjj : Int → ℝ := I.surf (fun jF kl => I.bdotj jF kl * I.gpp jF kl * I.gsqrt_full jF kl * I.bdotj jF kl / I.b2i jF kl)

/-! ## first table, 3112-3166 -/

/-- 3119-3121 -/
noncomputable def vp_full (jF : Int) : ℝ := (I.vp_real jF + I.vp_real (jF - 1)) / 2
/-- an entry of the first table; surfaces with `vp_full = 0` keep the value zero -/
noncomputable def table (v : Int → ℝ) : Int → ℝ := forRange 1 (I.ns - 1) (fun jF a => if I.vp_full jF = 0 then a else upd a jF (v jF)) (fun _ => 0)
/-- 3128-3132 -/
noncomputable def toroidal_flux : Int → ℝ := I.table (fun jF =>
  let t := forRange 1 (jF + 1) (fun jF' acc => acc + I.phip_realF jF') 0
  t * I.deltaS)
/-- 3135-3137 -/
noncomputable def iota : Int → ℝ := I.table (fun jF => (I.R.profH .iotaH jF + I.R.profH .iotaH (jF - 1)) / 2)
/-- 3140 -/
noncomputable def shearOut : Int → ℝ := I.table (fun jF => I.shear jF / I.vp_full jF)
/-- 3143 -/
noncomputable def d_volume_d_s : Int → ℝ := I.table I.vp_full
/-- 3146-3147 -/
noncomputable def well : Int → ℝ := I.table (fun jF => -I.vpp jF * I.sign_of_jacobian)
/-- 3150-3152 -/
noncomputable def toroidal_current : Int → ℝ := I.table (fun jF => (I.torcur jF + I.torcur (jF - 1)) / 2)
/-- 3159-3161 -/
noncomputable def pressure : Int → ℝ := I.table (fun jF => (I.R.profH .presH jF + I.R.profH .presH (jF - 1)) / 2)

/-! ## second table, 3169-3192 -/

/-- 3176-3177 -/
noncomputable def Dshear : Int → ℝ := I.overFull (fun jF => I.shear jF * I.shear jF / 4)
/-- 3179-3181 -/
noncomputable def Dcurr : Int → ℝ := I.overFull (fun jF => -I.shear jF * (I.tjb jF - I.d_toroidal_current_d_s jF * I.tbb jF))
/-- 3183-3186 -/
noncomputable def Dwell : Int → ℝ := I.overFull (fun jF => I.d_pressure_d_s jF * (I.vpp jF - I.d_pressure_d_s jF * I.tpp jF) * I.tbb jF)
/-- 3188 -/
noncomputable def Dgeod : Int → ℝ := I.overFull (fun jF => I.tjb jF * I.tjb jF - I.tbb jF * I.tjj jF)
/-- 3190-3191 -/
noncomputable def DMerc : Int → ℝ := I.overFull (fun jF => I.Dshear jF + I.Dcurr jF + I.Dwell jF + I.Dgeod jF)

end MercierIn

end Verif.Output
