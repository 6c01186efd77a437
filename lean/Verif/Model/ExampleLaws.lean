import Verif.Model.ContactLaws
import Mathlib.Analysis.SpecialFunctions.Exp
import Mathlib.Analysis.SpecialFunctions.Log.Basic
/-!
The contact laws of `examples/*.py`. Those with exponentials, logarithms and roots are over `ℝ`.
-/
namespace Conmech

variable {K : Type _} [Field K] [LinearOrder K]

/-! ### `BartmanSzwarc_Bagirrov_Ochal_2025.py` -/

/-- The arguments of `make_composite_contact_law(layers, alpha, beta)`,
`examples/BartmanSzwarc_Bagirrov_Ochal_2025.py:45`: `count` layers, and the values
`alphas = [alpha(lay) for lay in layers]`, `[beta(lay) for lay in layers]` (lines 46-47). -/
structure Layers (K : Type _) where
  count : ℕ
  layer : ℕ → K
  alpha : ℕ → K
  betaGiven : ℕ → K

namespace Layers

/-- Lines 47-48: `betas[0] = 0`. -/
def beta (c : Layers K) (n : ℕ) : K := if n = 0 then 0 else c.betaGiven n

/-- Lines 49-54. -/
def integ (c : Layers K) (n : ℕ) : K :=
  1 / 2 * (c.layer (n + 1) - c.layer n) * (c.beta (n + 1) + c.alpha n)

/-- Line 55: `np.cumsum(integ)[n]`. -/
def cumm (c : Layers K) : ℕ → K
  | 0 => c.integ 0
  | n + 1 => c.cumm n + c.integ (n + 1)

/-- Lines 56-58. -/
def slope (c : Layers K) (n : ℕ) : K :=
  (c.beta (n + 1) - c.alpha n) / (c.layer (n + 1) - c.layer n)

/-- Line 59. -/
def const (c : Layers K) (n : ℕ) : K := c.alpha n - c.layer n * c.slope n

/-- Lines 70-91, `potential_normal_direction`. `none`: `cumm[-1]` of an empty array (a single layer) or
`layers[0]` of an empty array raise `IndexError`. -/
def potential (c : Layers K) (v : K) : Option K :=
  if c.count = 0 then none
  else if v ≤ c.layer 0 then some 0
  else match (List.range c.count).find? fun n => ¬ v > c.layer n with
    | some n =>
      some ((if n > 1 then 0 + c.cumm (n - 2) else 0) +
        1 / 2 * (v - c.layer (n - 1)) * (v * c.slope (n - 1) + c.const (n - 1) + c.alpha (n - 1)))
    | none =>
      if c.count = 1 then none
      else some (c.cumm (c.count - 2) + c.alpha (c.count - 1) * (v - c.layer (c.count - 1)))

/-- Lines 92-102, `subderivative_normal_direction`; falling out of the loop returns `None`. -/
def subderivative (c : Layers K) (v : K) : Option K :=
  if c.count = 0 then none
  else if v ≤ c.layer 0 then some 0
  else if c.layer (c.count - 1) < v then some (c.alpha (c.count - 1))
  else match (List.range (c.count - 1)).find? fun n => v ≤ c.layer (n + 1) with
    | some n => some (v * c.slope n + c.const n)
    | none => none

/-- The loop of lines 112-119 from the levels that are left, with the value of `acc`. -/
def sub2Loop (c : Layers K) (v : K) : List ℕ → K → K
  | [], acc => acc
  | n :: rest, acc =>
    if v ≥ c.layer n then
      let acc := acc + max 0 (c.beta n - c.alpha n)
      c.sub2Loop v rest (if n > 0 then acc + max 0 (c.alpha (n - 1) - c.beta n) else acc)
    else acc + max 0 (-c.slope (n - 1)) * (v - c.layer (n - 1))

/-- Lines 104-120, `sub2derivative_normal_direction`. -/
def sub2derivative (c : Layers K) (v : K) : Option K :=
  if c.count = 0 then none
  else if v ≤ c.layer 0 then some 0
  else some (c.sub2Loop v (List.range c.count) 0)

end Layers

/-- Lines 460-474, `partition(start, stop, num, p)`: the list of points; `first_part` is divided by
zero only if `num = 0` or `p ** num = 1`. -/
def layerPartition (start stop : K) (num : ℕ) (p : K) : List K :=
  let length := stop - start
  let grad := if p = 1 then (num : K) else (1 - p ^ num) / (1 - p)
  let firstPart := length / grad
  ((List.range num).foldl (fun (acc : List K × K) i =>
    let curr := acc.2 + firstPart * p ^ i
    (acc.1 ++ [curr], curr)) ([start], start)).1

/-! ### `Makela_et_al_1998.py` -/

/-- `examples/Makela_et_al_1998.py:36-45`: the constants `k0, k10, k11, k20, k21`, multiplied by
`surface = 5 * mm * 80 * mm`, and `mm`. -/
noncomputable def mm : ℝ := 1 / 1000
/-- Line 40. -/
noncomputable def makelaSurface : ℝ := 5 * mm * 80 * mm
/-- Line 41. -/
noncomputable def makelaK0 : ℝ := 30 * 10 ^ 6 * 1000 * makelaSurface
/-- Line 42. -/
noncomputable def makelaK10 : ℝ := 10 * 10 ^ 6 * 1000 * makelaSurface
/-- Line 43. -/
noncomputable def makelaK11 : ℝ := 10 * 10 ^ 3 * 1000 * makelaSurface
/-- Line 44. -/
noncomputable def makelaK20 : ℝ := 5 * 10 ^ 6 * 1000 * makelaSurface
/-- Line 45. -/
noncomputable def makelaK21 : ℝ := 5 * 10 ^ 3 * 1000 * makelaSurface

/-- `examples/Makela_et_al_1998.py:49-62`, `MMLV99.potential_normal_direction`. -/
noncomputable def makelaPotential (v : ℝ) : ℝ :=
  let u := -v
  if u ≤ 0 then 0
  else if u < 1 / 2 * mm then makelaK0 * u ^ 2
  else if u < 1 * mm then makelaK10 * u ^ 2 + makelaK11 * u
  else if u < 2 * mm then makelaK20 * u ^ 2 + makelaK21 * u + 4
  else 16

/-- Lines 64-77, `MMLV99.subderivative_normal_direction`. -/
noncomputable def makelaSubderivative (v : ℝ) : ℝ :=
  let u := -v
  if u ≤ 0 then 0
  else if u < 1 / 2 * mm then makelaK0 * u * 2
  else if u < 1 * mm then makelaK10 * (u * 2) + makelaK11
  else if u < 2 * mm then makelaK20 * (u * 2) + makelaK21
  else 0

/-- Lines 79-101, `MMLV99.sub2derivative_normal_direction`. -/
noncomputable def makelaSub2derivative (v : ℝ) : ℝ :=
  let u := -v
  let p1 := 1 / 2 * mm
  if u ≤ p1 then 0
  else
    let acc := 0 + (makelaK0 * p1 * 2 - (makelaK10 * (p1 * 2) + makelaK11))
    let p2 := 1 * mm
    if u < p2 then acc
    else
      let acc := acc + ((makelaK10 * (p2 * 2) + makelaK11) - (makelaK20 * (p2 * 2) + makelaK21))
      let p3 := 2 * mm
      if u < p3 then acc
      else acc + ((makelaK20 * (p3 * 2) + makelaK21) - 0)

/-- Lines 103-107: `np.log(np.sum(var_tau**2) ** 0.5 + 1)`, also
`examples/Jureczka_Ochal_2019.py:42-46` and `BartmanSzwarc_Bagirrov_Ochal_2025.py:64-68`; for a vector
with two coordinates. -/
noncomputable def logTangential (x y : ℝ) : ℝ := Real.log (√(x ^ 2 + y ^ 2) + 1)

/-- Lines 109-117, `MMLV99.subderivative_tangential_direction`. -/
noncomputable def logTangentialSubderivative (x y : ℝ) : ℝ × ℝ :=
  let quadsum := x ^ 2 + y ^ 2
  let norm := √quadsum
  let denom := norm + quadsum
  let coef := if denom ≠ 0 then 1 / denom else 0
  (x * coef, y * coef)

/-! ### Other laws -/

/-- `examples/BartmanSzwarc_Ochal_Tarzia_2026.py:60-72`; `b` is `B_COEF`. -/
noncomputable def tarziaPotential (slope b r : ℝ) : ℝ :=
  (if r < b then (r - b) ^ 2 else 2 * Real.log ((r - b) + 1)) * slope

/-- Lines 74-86. -/
noncomputable def tarziaSubderivative (slope b r : ℝ) : ℝ :=
  (if r < b then r - b else 1 / (r - b + 1)) * slope

/-- `examples/Jureczka_Ochal_2019.py:32-40`. -/
noncomputable def jureczkaPotential (v : ℝ) : ℝ :=
  if v ≤ 0 then 0 else if v < 1 / 10 then 10 * v * v else 1 / 10

/-- `examples/Jureczka_Ochal_2019.py:48-54`; the argument is the static displacement. -/
noncomputable def jureczkaBound (static : ℝ) : ℝ :=
  if static < 0 then 0 else if static < 1 / 10 then 8 * static else 8 / 10

/-- `examples/Jureczka_Ochal_Bartman_2023.py:36-44`. -/
noncomputable def limitPotential (limitValue limit v : ℝ) : ℝ :=
  if v ≤ 0 then 0 else if v < limit then limitValue * v else limitValue * limit

/-- `examples/Jureczka_Ochal_Bartman_2023.py:26-34`. -/
noncomputable def limitBound (friction v : ℝ) : ℝ :=
  if v ≤ 0 then 0 else if v < 1 / 10 then friction * v else friction * (1 / 10)

/-- `examples/Jureczka_Ochal_Bartman_2023.py:46-53`, as a function of the length of the tangential
part. -/
noncomputable def limitTangential (length : ℝ) : ℝ := -(3 / 10) * Real.exp (-length) + 7 / 10 * length

/-- `examples/BartmanSzwarc_Ochal_Sofonea_Tarzia_2025.py:81-95`. -/
noncomputable def bostPotential (ig gap v : ℝ) : ℝ :=
  let v := v - gap
  let a : ℝ := 1 / 10
  let b : ℝ := 1 / 10
  ig * (if v ≤ 0 then 0
    else if v < b then (a + Real.exp (-b)) / (2 * b) * v ^ 2
    else a * v - Real.exp (-v) + ((b + 2) * Real.exp (-b) - a * b) / 2)

/-- `examples/example_manufactured_solution.py:71-77`. -/
def linearPotential (stiffness v : K) : K := if v ≤ 0 then 0 else 1 / 2 * stiffness * v ^ 2

/-- `examples/example_manufactured_solution.py:83-90`. -/
def linearSubderivative (stiffness v : K) : K := if v ≤ 0 then 0 else stiffness * v

end Conmech
