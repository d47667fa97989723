/-
Model of the displacements of a beam on an elastic foundation with a change of stiffness under a moving load
(`analytical_solutions/winkler.py`). Complex numbers are exact; `np.sqrt` of a complex number is the principal root.
-/
import Verif.Model.Assembly
import Mathlib.Analysis.SpecialFunctions.Pow.Real
import Mathlib.Analysis.Complex.Trigonometric

set_option linter.unusedSectionVars false

namespace Rose

/-- `np.sqrt` of a complex number, as used in `analytical_solutions/winkler.py:74-75, 173-179, 238-250`. -/
noncomputable def csqrt (z : ℂ) : ℂ := z ^ (2⁻¹ : ℂ)

/-- The arguments of `MovingLoad(nb_terms, a)` and of `parameters`, `analytical_solutions/winkler.py:7-33, 35-43`; `EI` is `E * I`. -/
structure WinklerInput where
  nbTerms : ℕ
  a : ℝ
  position : List ℝ
  speed : ℝ
  EI : ℝ
  rho : ℝ
  stiffness : List ℝ
  force : ℝ

/-- The attributes after `parameters`, `analytical_solutions/winkler.py:35-83`. -/
structure Winkler where
  nbTerms : ℕ
  a : ℝ
  position : List ℝ
  speed : ℝ
  h : ℝ
  beta : ℝ
  alpha : ℝ
  F : ℝ
  kRatio : ℝ

/-- `c_crit`, `analytical_solutions/winkler.py:47`. -/
noncomputable def WinklerInput.critical (i : WinklerInput) (k0 k1 : ℝ) : ℝ := (4 * min k0 k1 * i.EI / i.rho ^ 2) ^ (1 / 4 : ℝ)

/-- `parameters`, `analytical_solutions/winkler.py:35-83`; `sys.exit` is an exception. -/
noncomputable def WinklerInput.parameters (i : WinklerInput) : Except Err Winkler :=
  match i.stiffness with
  | [k0, k1] =>
    if i.critical k0 k1 < i.speed then .error .exception
    else
      let beta := √(i.EI / i.rho)
      let h := √(k0 / i.rho)
      .ok {
        nbTerms := i.nbTerms, a := i.a, position := i.position, speed := i.speed, h := h, beta := beta
        alpha := i.speed / √(beta * h)
        F := i.force / (i.rho * h ^ (3 / 2 : ℝ) * beta ^ (1 / 2 : ℝ))
        kRatio := k1 / k0 }
  | _ => .error .exception

namespace Winkler
variable (m : Winkler)

/-- `qa`, `analytical_solutions/winkler.py:74`. -/
noncomputable def qa : ℂ := -csqrt (1 / 2 * (-(m.alpha : ℂ) ^ 2 + Complex.I * (√(4 - m.alpha ^ 4) : ℝ)))

/-- `qb`, `analytical_solutions/winkler.py:75`. -/
noncomputable def qb : ℂ := -csqrt (1 / 2 * (-(m.alpha : ℂ) ^ 2 - Complex.I * (√(4 - m.alpha ^ 4) : ℝ)))

/-- `A`, `analytical_solutions/winkler.py:77`. -/
noncomputable def A : ℂ := m.F / (2 * Complex.I * m.qa * (√(4 - m.alpha ^ 4) : ℝ))

/-- `B`, `analytical_solutions/winkler.py:78`. -/
noncomputable def B : ℂ := -m.qa / m.qb * m.A

/-- `g1a`, `analytical_solutions/winkler.py:238`. -/
noncomputable def g1a : ℂ := csqrt (1 + m.qa ^ 2 * m.alpha ^ 2)
/-- `g1b`, `analytical_solutions/winkler.py:239`. -/
noncomputable def g1b : ℂ := csqrt (1 + m.qb ^ 2 * m.alpha ^ 2)
/-- `g2a`, `analytical_solutions/winkler.py:240`. -/
noncomputable def g2a : ℂ := csqrt (m.kRatio + m.qa ^ 2 * m.alpha ^ 2)
/-- `g2b`, `analytical_solutions/winkler.py:241`. -/
noncomputable def g2b : ℂ := csqrt (m.kRatio + m.qb ^ 2 * m.alpha ^ 2)

/-- `r1a1`, `analytical_solutions/winkler.py:243`. -/
noncomputable def r1a1 : ℂ := csqrt (Complex.I * m.g1a)
/-- `r1a2`, `analytical_solutions/winkler.py:244`. -/
noncomputable def r1a2 : ℂ := csqrt (-Complex.I * m.g1a)
/-- `r1b1`, `analytical_solutions/winkler.py:245`. -/
noncomputable def r1b1 : ℂ := csqrt (Complex.I * m.g1b)
/-- `r1b2`, `analytical_solutions/winkler.py:246`. -/
noncomputable def r1b2 : ℂ := csqrt (-Complex.I * m.g1b)
/-- `r2a1`, `analytical_solutions/winkler.py:247`. -/
noncomputable def r2a1 : ℂ := -csqrt (Complex.I * m.g2a)
/-- `r2a2`, `analytical_solutions/winkler.py:248`. -/
noncomputable def r2a2 : ℂ := -csqrt (-Complex.I * m.g2a)
/-- `r2b1`, `analytical_solutions/winkler.py:249`. -/
noncomputable def r2b1 : ℂ := -csqrt (Complex.I * m.g2b)
/-- `r2b2`, `analytical_solutions/winkler.py:250`. -/
noncomputable def r2b2 : ℂ := -csqrt (-Complex.I * m.g2b)

/-- `C1a`, `analytical_solutions/winkler.py:252`. -/
noncomputable def C1a : ℂ := -((m.qa - m.r1a2) * (m.qa - m.r2a2) * (m.qa - m.r2a1)) * m.A /
  ((m.r1a1 - m.r1a2) * (m.r2a2 - m.r1a1) * (m.r2a1 - m.r1a1))
/-- `C2a`, `analytical_solutions/winkler.py:253`. -/
noncomputable def C2a : ℂ := ((m.qa - m.r1a2) * (m.qa - m.r1a1) * (m.qa - m.r2a2)) * m.A /
  ((m.r2a1 - m.r2a2) * (m.r2a1 - m.r1a2) * (m.r2a1 - m.r1a1))
/-- `D1a`, `analytical_solutions/winkler.py:254`. -/
noncomputable def D1a : ℂ := ((m.qa - m.r1a1) * (m.qa - m.r2a2) * (m.qa - m.r2a1)) * m.A /
  ((m.r2a2 - m.r1a2) * (m.r2a1 - m.r1a2) * (m.r1a1 - m.r1a2))
/-- `D2a`, `analytical_solutions/winkler.py:255`. -/
noncomputable def D2a : ℂ := -((m.qa - m.r1a2) * (m.qa - m.r1a1) * (m.qa - m.r2a1)) * m.A /
  ((m.r2a2 - m.r1a2) * (m.r2a2 - m.r1a1) * (m.r2a1 - m.r2a2))
/-- `C1b`, `analytical_solutions/winkler.py:256`. -/
noncomputable def C1b : ℂ := -((m.qb - m.r1b2) * (m.qb - m.r2b2) * (m.qb - m.r2b1)) * m.B /
  ((m.r1b1 - m.r1b2) * (m.r1b1 - m.r2b2) * (m.r1b1 - m.r2b1))
/-- `C2b`, `analytical_solutions/winkler.py:257`. -/
noncomputable def C2b : ℂ := -((m.qb - m.r1b2) * (m.qb - m.r2b2) * (m.qb - m.r1b1)) * m.B /
  ((m.r2b1 - m.r1b2) * (m.r1b1 - m.r2b1) * (m.r2b1 - m.r2b2))
/-- `D1b`, `analytical_solutions/winkler.py:258`. -/
noncomputable def D1b : ℂ := ((m.qb - m.r2b2) * (m.qb - m.r2b1) * (m.qb - m.r1b1)) * m.B /
  ((m.r2b2 - m.r1b2) * (m.r2b1 - m.r1b2) * (m.r1b1 - m.r1b2))
/-- `D2b`, `analytical_solutions/winkler.py:259`. -/
noncomputable def D2b : ℂ := -((m.qb - m.r1b1) * (m.qb - m.r1b2) * (m.qb - m.r2b1)) * m.B /
  ((m.r1b1 - m.r2b2) * (m.r1b2 - m.r2b2) * (m.r2b1 - m.r2b2))

/-- `u1h` of `coefficients_low` at a coordinate, `analytical_solutions/winkler.py:161-166`. -/
noncomputable def u1h (x t : ℝ) : ℂ :=
  (m.C1a * Complex.exp (m.r1a1 * x) + m.D1a * Complex.exp (m.r1a2 * x)) * Complex.exp (-m.qa * m.alpha * t) +
    (m.C1b * Complex.exp (m.r1b1 * x) + m.D1b * Complex.exp (m.r1b2 * x)) * Complex.exp (-m.qb * m.alpha * t)

/-- `u2h` of `coefficients_low` at a coordinate, `analytical_solutions/winkler.py:163-167`. -/
noncomputable def u2h (x t : ℝ) : ℂ :=
  (m.C2a * Complex.exp (m.r2a1 * x) + m.D2a * Complex.exp (m.r2a2 * x)) * Complex.exp (-m.qa * m.alpha * t) +
    (m.C2b * Complex.exp (m.r2b1 * x) + m.D2b * Complex.exp (m.r2b2 * x)) * Complex.exp (-m.qb * m.alpha * t)

/-- `u1p` at a coordinate, `analytical_solutions/winkler.py:109, 114`. -/
noncomputable def u1p (x t : ℝ) : ℂ :=
  m.A * Complex.exp (m.qa * |x - m.alpha * t|) + m.B * Complex.exp (m.qb * |x - m.alpha * t|)

/-- The body of the loop of `time_low` for one coordinate, `analytical_solutions/winkler.py:100-118`. -/
noncomputable def lowAt (x t : ℝ) : ℝ := if x ≤ 0 then (m.u1p x t).re + (m.u1h x t).re else (m.u2h x t).re

/-- `self.tau`, `analytical_solutions/winkler.py:52, 61-62`. -/
noncomputable def tau : List ℝ := m.position.map fun x => m.h * (x / m.speed)

/-- `self.qsi`, `analytical_solutions/winkler.py:63-64`. -/
noncomputable def qsi : List ℝ := m.position.map fun x => √(m.h / m.beta) * x

/-- The columns of `self.u` that `time_low` sets: one for each negative time, `analytical_solutions/winkler.py:100-120`. -/
noncomputable def timeLow : List (List ℝ) := (m.tau.filter (· < 0)).map fun t => m.qsi.map fun x => m.lowAt x t

section bar
variable (s : ℂ)

/-- `s1`, `analytical_solutions/winkler.py:173`. -/
noncomputable def s1 : ℂ := csqrt (1 + s ^ 2)
/-- `s2`, `analytical_solutions/winkler.py:174`. -/
noncomputable def s2 : ℂ := csqrt (m.kRatio + s ^ 2)
/-- `rs11`, `analytical_solutions/winkler.py:176`. -/
noncomputable def rs11 : ℂ := csqrt (Complex.I * s1 s)
/-- `rs12`, `analytical_solutions/winkler.py:177`. -/
noncomputable def rs12 : ℂ := csqrt (-Complex.I * s1 s)
/-- `rs21`, `analytical_solutions/winkler.py:178`. -/
noncomputable def rs21 : ℂ := -csqrt (Complex.I * m.s2 s)
/-- `rs22`, `analytical_solutions/winkler.py:179`. -/
noncomputable def rs22 : ℂ := -csqrt (-Complex.I * m.s2 s)

/-- `ZZ1`, `analytical_solutions/winkler.py:181-184`, with the minus sign in the third term as in the code. -/
noncomputable def ZZ1 : ℂ :=
  m.C1a * (s - m.alpha * m.qa) / (s1 s ^ 2 + m.r1a1 ^ 4) + m.D1a * (s - m.alpha * m.qa) / (s1 s ^ 2 + m.r1a2 ^ 4) +
  m.C1b * (s - m.alpha * m.qb) / (s1 s ^ 2 - m.r1b1 ^ 4) + m.D1b * (s - m.alpha * m.qb) / (s1 s ^ 2 + m.r1b2 ^ 4) +
  m.A * (s + m.alpha * m.qa) / (s1 s ^ 2 + m.qa ^ 4) + m.B * (s + m.alpha * m.qb) / (s1 s ^ 2 + m.qb ^ 4) -
  m.C2a * (s - m.alpha * m.qa) / (m.s2 s ^ 2 + m.r2a1 ^ 4) - m.D2a * (s - m.alpha * m.qa) / (m.s2 s ^ 2 + m.r2a2 ^ 4) -
  m.C2b * (s - m.alpha * m.qb) / (m.s2 s ^ 2 + m.r2b1 ^ 4) - m.D2b * (s - m.alpha * m.qb) / (m.s2 s ^ 2 + m.r2b2 ^ 4) -
  m.F / (m.alpha * (m.s2 s ^ 2 + s ^ 4 / m.alpha ^ 4))

/-- `ZZ2`, `analytical_solutions/winkler.py:186-190`. -/
noncomputable def ZZ2 : ℂ :=
  m.r1a1 * m.C1a * (s - m.alpha * m.qa) / (s1 s ^ 2 + m.r1a1 ^ 4) + m.r1a2 * m.D1a * (s - m.alpha * m.qa) / (s1 s ^ 2 + m.r1a2 ^ 4) +
  m.r1b1 * m.C1b * (s - m.alpha * m.qb) / (s1 s ^ 2 + m.r1b1 ^ 4) + m.r1b2 * m.D1b * (s - m.alpha * m.qb) / (s1 s ^ 2 + m.r1b2 ^ 4) -
  m.qa * m.A * (s + m.alpha * m.qa) / (s1 s ^ 2 + m.qa ^ 4) - m.qb * m.B * (s + m.alpha * m.qb) / (s1 s ^ 2 + m.qb ^ 4) -
  m.r2a1 * m.C2a * (s - m.alpha * m.qa) / (m.s2 s ^ 2 + m.r2a1 ^ 4) - m.r2a2 * m.D2a * (s - m.alpha * m.qa) / (m.s2 s ^ 2 + m.r2a2 ^ 4) -
  m.r2b1 * m.C2b * (s - m.alpha * m.qb) / (m.s2 s ^ 2 + m.r2b1 ^ 4) - m.r2b2 * m.D2b * (s - m.alpha * m.qb) / (m.s2 s ^ 2 + m.r2b2 ^ 4) +
  s * m.F / (m.alpha ^ 2 * (m.s2 s ^ 2 + s ^ 4 / m.alpha ^ 4))

/-- `ZZ3`, `analytical_solutions/winkler.py:192-197`. -/
noncomputable def ZZ3 : ℂ :=
  m.r1a1 ^ 2 * m.C1a * (s - m.alpha * m.qa) / (s1 s ^ 2 + m.r1a1 ^ 4) + m.r1a2 ^ 2 * m.D1a * (s - m.alpha * m.qa) / (s1 s ^ 2 + m.r1a2 ^ 4) +
  m.r1b1 ^ 2 * m.C1b * (s - m.alpha * m.qb) / (s1 s ^ 2 + m.r1b1 ^ 4) + m.r1b2 ^ 2 * m.D1b * (s - m.alpha * m.qb) / (s1 s ^ 2 + m.r1b2 ^ 4) +
  m.qa ^ 2 * m.A * (s + m.alpha * m.qa) / (s1 s ^ 2 + m.qa ^ 4) + m.qb ^ 2 * m.B * (s + m.alpha * m.qb) / (s1 s ^ 2 + m.qb ^ 4) -
  m.r2a1 ^ 2 * m.C2a * (s - m.alpha * m.qa) / (m.s2 s ^ 2 + m.r2a1 ^ 4) - m.r2a2 ^ 2 * m.D2a * (s - m.alpha * m.qa) / (m.s2 s ^ 2 + m.r2a2 ^ 4) -
  m.r2b1 ^ 2 * m.C2b * (s - m.alpha * m.qb) / (m.s2 s ^ 2 + m.r2b1 ^ 4) - m.r2b2 ^ 2 * m.D2b * (s - m.alpha * m.qb) / (m.s2 s ^ 2 + m.r2b2 ^ 4) -
  s ^ 2 * m.F / (m.alpha ^ 3 * (m.s2 s ^ 2 + s ^ 4 / m.alpha ^ 4))

/-- `ZZ4`, `analytical_solutions/winkler.py:199-204`. -/
noncomputable def ZZ4 : ℂ :=
  m.r1a1 ^ 3 * m.C1a * (s - m.alpha * m.qa) / (s1 s ^ 2 + m.r1a1 ^ 4) + m.r1a2 ^ 3 * m.D1a * (s - m.alpha * m.qa) / (s1 s ^ 2 + m.r1a2 ^ 4) +
  m.r1b1 ^ 3 * m.C1b * (s - m.alpha * m.qb) / (s1 s ^ 2 + m.r1b1 ^ 4) + m.r1b2 ^ 3 * m.D1b * (s - m.alpha * m.qb) / (s1 s ^ 2 + m.r1b2 ^ 4) -
  m.qa ^ 3 * m.A * (s + m.alpha * m.qa) / (s1 s ^ 2 + m.qa ^ 4) - m.qb ^ 3 * m.B * (s + m.alpha * m.qb) / (s1 s ^ 2 + m.qb ^ 4) -
  m.r2a1 ^ 3 * m.C2a * (s - m.alpha * m.qa) / (m.s2 s ^ 2 + m.r2a1 ^ 4) - m.r2a2 ^ 3 * m.D2a * (s - m.alpha * m.qa) / (m.s2 s ^ 2 + m.r2a2 ^ 4) -
  m.r2b1 ^ 3 * m.C2b * (s - m.alpha * m.qb) / (m.s2 s ^ 2 + m.r2b1 ^ 4) - m.r2b2 ^ 3 * m.D2b * (s - m.alpha * m.qb) / (m.s2 s ^ 2 + m.r2b2 ^ 4) +
  s ^ 3 * m.F / (m.alpha ^ 4 * (m.s2 s ^ 2 + s ^ 4 / m.alpha ^ 4))

/-- `E1`, `analytical_solutions/winkler.py:206-208`. -/
noncomputable def E1 : ℂ :=
  (rs12 s * m.rs21 s * m.rs22 s * m.ZZ1 s - rs12 s * m.rs21 s * m.ZZ2 s - rs12 s * m.rs22 s * m.ZZ2 s -
    m.rs21 s * m.rs22 s * m.ZZ2 s + rs12 s * m.ZZ3 s + m.rs21 s * m.ZZ3 s + m.rs22 s * m.ZZ3 s - m.ZZ4 s) /
  ((rs11 s - rs12 s) * (rs11 s ^ 2 - rs11 s * m.rs22 s - rs11 s * m.rs21 s + m.rs21 s * m.rs22 s))

/-- `G1`, `analytical_solutions/winkler.py:209-211`. -/
noncomputable def G1 : ℂ :=
  (rs11 s * m.rs21 s * m.rs22 s * m.ZZ1 s - rs11 s * m.rs21 s * m.ZZ2 s - rs11 s * m.rs22 s * m.ZZ2 s -
    m.rs21 s * m.rs22 s * m.ZZ2 s + rs11 s * m.ZZ3 s + m.rs21 s * m.ZZ3 s + m.rs22 s * m.ZZ3 s - m.ZZ4 s) /
  ((rs12 s - rs11 s) * (rs12 s - m.rs21 s) * (rs12 s - m.rs22 s))

/-- `E2`, `analytical_solutions/winkler.py:212-214`. -/
noncomputable def E2 : ℂ :=
  (rs11 s * rs12 s * m.rs22 s * m.ZZ1 s - rs11 s * rs12 s * m.ZZ2 s - rs11 s * m.rs22 s * m.ZZ2 s -
    rs12 s * m.rs22 s * m.ZZ2 s + rs11 s * m.ZZ3 s + rs12 s * m.ZZ3 s + m.rs22 s * m.ZZ3 s - m.ZZ4 s) /
  ((m.rs22 s - m.rs21 s) * (m.rs21 s ^ 2 - rs11 s * m.rs21 s - rs12 s * m.rs21 s + rs11 s * rs12 s))

/-- `G2`, `analytical_solutions/winkler.py:215-217`. -/
noncomputable def G2 : ℂ :=
  (rs11 s * rs12 s * m.rs21 s * m.ZZ1 s - rs11 s * rs12 s * m.ZZ2 s - rs11 s * m.rs21 s * m.ZZ2 s -
    rs12 s * m.rs21 s * m.ZZ2 s + rs11 s * m.ZZ3 s + rs12 s * m.ZZ3 s + m.rs21 s * m.ZZ3 s - m.ZZ4 s) /
  ((rs11 s - m.rs22 s) * (rs12 s - m.rs22 s) * (m.rs21 s - m.rs22 s))

/-- `ub1` at a coordinate, `analytical_solutions/winkler.py:219-226`. -/
noncomputable def ub1 (x : ℝ) : ℂ :=
  m.C1a * (s - m.alpha * m.qa) / (s1 s ^ 2 + m.r1a1 ^ 4) * Complex.exp (m.r1a1 * x) +
  m.D1a * (s - m.alpha * m.qa) / (s1 s ^ 2 + m.r1a2 ^ 4) * Complex.exp (m.r1a2 * x) +
  m.C1b * (s - m.alpha * m.qb) / (s1 s ^ 2 + m.r1b1 ^ 4) * Complex.exp (m.r1b1 * x) +
  m.D1b * (s - m.alpha * m.qb) / (s1 s ^ 2 + m.r1b2 ^ 4) * Complex.exp (m.r1b2 * x) +
  m.A * (s + m.alpha * m.qa) / (s1 s ^ 2 + m.qa ^ 4) * Complex.exp (-m.qa * x) +
  m.B * (s + m.alpha * m.qb) / (s1 s ^ 2 + m.qb ^ 4) * Complex.exp (-m.qb * x) +
  m.E1 s * Complex.exp (rs11 s * x) + m.G1 s * Complex.exp (rs12 s * x)

/-- `ub2` at a coordinate, `analytical_solutions/winkler.py:227-232`. -/
noncomputable def ub2 (x : ℝ) : ℂ :=
  m.C2a * (s - m.alpha * m.qa) / (m.s2 s ^ 2 + m.r2a1 ^ 4) * Complex.exp (m.r2a1 * x) +
  m.D2a * (s - m.alpha * m.qa) / (m.s2 s ^ 2 + m.r2a2 ^ 4) * Complex.exp (m.r2a2 * x) +
  m.C2b * (s - m.alpha * m.qb) / (m.s2 s ^ 2 + m.r2b1 ^ 4) * Complex.exp (m.r2b1 * x) +
  m.D2b * (s - m.alpha * m.qb) / (m.s2 s ^ 2 + m.r2b2 ^ 4) * Complex.exp (m.r2b2 * x) +
  m.F / (m.alpha * (m.s2 s ^ 2 + s ^ 4 / m.alpha ^ 4)) * Complex.exp (-s / m.alpha * x) +
  m.E2 s * Complex.exp (m.rs21 s * x) + m.G2 s * Complex.exp (m.rs22 s * x)

/-- `ubar` at a coordinate, `analytical_solutions/winkler.py:132-138, 147-152`. -/
noncomputable def ubar (x : ℝ) : ℝ := if x ≤ 0 then (m.ub1 s x).re else (m.ub2 s x).re

end bar

/-- `self.period`, `analytical_solutions/winkler.py:67`. -/
noncomputable def period : ℝ := m.tau.getLast?.getD 0 * 2

/-- `self.uu` at a coordinate and a time that is not negative, `analytical_solutions/winkler.py:122-157`. -/
noncomputable def highAt (x t : ℝ) : ℝ :=
  2 * Real.exp (m.a * t) / m.period * (1 / 2 * m.ubar m.a x +
    (List.range' 1 (m.nbTerms - 1)).foldl
      (fun acc (k : ℕ) => acc + m.ubar (m.a + k * Real.pi * Complex.I / m.period) x * Real.cos (k * Real.pi * t / m.period)) 0)

end Winkler

end Rose
