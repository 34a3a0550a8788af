import Verif.Kernels.Spec

/-!
# The energy of a discretised plasma

A quantity `f = f_e + √s f_o` is given by its two parts on the full grid. `Part` picks one of them out of the geometry of
a point. The energy is written for the torus as a whole with the magnetic fluxes and the mass between two surfaces held
fixed. Nothing of the force kernels occurs.
-/
namespace Verif.Kernels.Spec
open Finset

/-- even and odd part of a quantity -/
structure Part where
  e : Geo → ℝ
  o : Geo → ℝ

def R : Part := ⟨Geo.r1_e, Geo.r1_o⟩
def Z : Part := ⟨Geo.z1_e, Geo.z1_o⟩
def Ru : Part := ⟨Geo.ru_e, Geo.ru_o⟩
def Zu : Part := ⟨Geo.zu_e, Geo.zu_o⟩
def Rv : Part := ⟨Geo.rv_e, Geo.rv_o⟩
def Zv : Part := ⟨Geo.zv_e, Geo.zv_o⟩
def Lu : Part := ⟨Geo.lu_e, Geo.lu_o⟩
def Lv : Part := ⟨Geo.lv_e, Geo.lv_o⟩

/-- value halfway between the surfaces `i` and `o`; `q` = √s there -/
noncomputable def mid (q : ℝ) (i o : Geo) (f : Part) : ℝ := ((f.e i + q * f.o i) + (f.e o + q * f.o o)) / 2

/-- radial derivative with √s kept fixed -/
noncomputable def ds (deltaS q : ℝ) (i o : Geo) (f : Part) : ℝ := ((f.e o + q * f.o o) - (f.e i + q * f.o i)) / deltaS

/-- average of a product, with s itself where √s meets √s; `a`, `b` = s on the surfaces -/
noncomputable def prod (a b q : ℝ) (i o : Geo) (f g : Part) : ℝ :=
  ((f.e i * g.e i + q * (f.e i * g.o i + f.o i * g.e i) + a * (f.o i * g.o i)) +
    (f.e o * g.e o + q * (f.e o * g.o o + f.o o * g.e o) + b * (f.o o * g.o o))) / 2

/-- average of `f · ∂g/∂s` with the derivative of √s, `g_o / (2 √s)`, for `g` -/
noncomputable def rootTerm (q : ℝ) (i o : Geo) (f g : Part) : ℝ :=
  ((f.e i / q + f.o i) * (g.o i / 2) + (f.e o / q + f.o o) * (g.o o / 2)) / 2

/-- `R_u Z_s - R_s Z_u` -/
noncomputable def tau (deltaS q : ℝ) (i o : Geo) : ℝ :=
  (mid q i o Ru * ds deltaS q i o Z + rootTerm q i o Ru Z) - (ds deltaS q i o R * mid q i o Zu + rootTerm q i o Zu R)

noncomputable def gsqrt (deltaS q : ℝ) (i o : Geo) : ℝ := mid q i o R * tau deltaS q i o

noncomputable def guu (a b q : ℝ) (i o : Geo) : ℝ := prod a b q i o Ru Ru + prod a b q i o Zu Zu
noncomputable def guv (lthreed : Bool) (a b q : ℝ) (i o : Geo) : ℝ :=
  if lthreed then prod a b q i o Ru Rv + prod a b q i o Zu Zv else 0
noncomputable def gvv (lthreed : Bool) (a b q : ℝ) (i o : Geo) : ℝ :=
  prod a b q i o R R + if lthreed then prod a b q i o Rv Rv + prod a b q i o Zv Zv else 0

/-- magnetic energy density times the Jacobian, for given fluxes `x = √g B^u`, `y = √g B^v` -/
noncomputable def magnetic (lthreed : Bool) (deltaS a b q : ℝ) (i o : Geo) (x y : ℝ) : ℝ :=
  (guu a b q i o * x ^ 2 + 2 * guv lthreed a b q i o * x * y + gvv lthreed a b q i o * y ^ 2) / (2 * gsqrt deltaS q i o)

/-- volume between two surfaces divided by `deltaS` and 4π² -/
noncomputable def volume (deltaS sign : ℝ) (N : Int) (w : Int → ℝ) (q : ℝ) (i o : Int → Geo) : ℝ :=
  sign * integral N w fun kl => gsqrt deltaS q (i kl) (o kl)

/-- energy of the torus: `x h kl`, `y h kl` fluxes, `M h` mass; adiabatic index `gamma` -/
noncomputable def energy (ns : Int) (lthreed : Bool) (deltaS sign gamma : ℝ) (N : Int) (w : Int → ℝ) (qH qF : Int → ℝ)
    (x y : Int → Int → ℝ) (M : Int → ℝ) (X : Int → Int → Geo) : ℝ :=
  ∑ h ∈ Ico 0 (ns - 1), deltaS *
    ((sign * integral N w fun kl => magnetic lthreed deltaS (qF h ^ 2) (qF (h + 1) ^ 2) (qH h) (X h kl) (X (h + 1) kl)
        (x h kl) (y h kl)) +
      M h * volume deltaS sign N w (qH h) (X h) (X (h + 1)) ^ (1 - gamma) / (gamma - 1))

/-- displacement of `R`, `Z` and their derivatives; lambda stays -/
noncomputable def move (g d : Geo) (eps : ℝ) : Geo :=
  { g with
    r1_e := g.r1_e + eps * d.r1_e, r1_o := g.r1_o + eps * d.r1_o, ru_e := g.ru_e + eps * d.ru_e, ru_o := g.ru_o + eps * d.ru_o
    z1_e := g.z1_e + eps * d.z1_e, z1_o := g.z1_o + eps * d.z1_o, zu_e := g.zu_e + eps * d.zu_e, zu_o := g.zu_o + eps * d.zu_o
    rv_e := g.rv_e + eps * d.rv_e, rv_o := g.rv_o + eps * d.rv_o, zv_e := g.zv_e + eps * d.zv_e, zv_o := g.zv_o + eps * d.zv_o }

/-- power of a force along a displacement; the `c` parts carry the opposite sign because the force is
    `A - ∂B/∂u + ∂C/∂v` -/
noncomputable def power (lthreed : Bool) (f : Force) (d : Geo) : ℝ :=
  f.armn_e * d.r1_e + f.armn_o * d.r1_o + f.azmn_e * d.z1_e + f.azmn_o * d.z1_o + f.brmn_e * d.ru_e + f.brmn_o * d.ru_o +
    f.bzmn_e * d.zu_e + f.bzmn_o * d.zu_o -
    if lthreed then f.crmn_e * d.rv_e + f.crmn_o * d.rv_o + f.czmn_e * d.zv_e + f.czmn_o * d.zv_o else 0

end Verif.Kernels.Spec
