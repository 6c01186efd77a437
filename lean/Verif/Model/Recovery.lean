import Verif.Model.Assembly
/-
Model of the recovery of gradients and stresses of `examples/utils.py`.

Fields are functions of the node and the coordinate. A node without elements gets `0 / 0`, which is `nan`
in numpy and `0` here; the theorems are about nodes with elements.
-/
namespace Conmech

variable {K : Type _} [Field K]

/-- `calculate_dx_dy`, `examples/utils.py:38-51` and `examples/error_estimates.py:80-92`. -/
def calculateDxDy (x0 : ℕ → K) (u0 : K) (x1 : ℕ → K) (u1 : K) (x2 : ℕ → K) (u2 : K) : K × K :=
  let a1 := x1 0 - x0 0
  let b1 := x1 1 - x0 1
  let c1 := u1 - u0
  let a2 := x2 0 - x0 0
  let b2 := x2 1 - x0 1
  let c2 := u2 - u0
  let a := b1 * c2 - b2 * c1
  let b := a2 * c1 - a1 * c2
  let c := a1 * b2 - b1 * a2
  (a / c, b / c)

/-- The arrays `result` and `norm` of `gradient`, `examples/utils.py:54-56`. -/
structure Recovery (K : Type _) where
  result : ℕ → ℕ → K
  norm : ℕ → K

/-- `result[p, 0] += dx`, `result[p, 1] += dy`, `norm[p] += 1`, `examples/utils.py:65-67`, and again for
the other vertices, lines 68-73. -/
def Recovery.add (r : Recovery K) (p : ℕ) (g : K × K) : Recovery K where
  result := fun q k => if q = p then
    if k = 0 then r.result q k + g.1 else if k = 1 then r.result q k + g.2 else r.result q k
    else r.result q k
  norm := fun q => if q = p then r.norm q + 1 else r.norm q

/-- One round of the loop of `gradient`, `examples/utils.py:57-73`. -/
def recoverElement (nodes : ℕ → ℕ → K) (f : ℕ → K) (r : Recovery K) (element : List ℕ) : Recovery K :=
  let e0 := element.getD 0 0
  let e1 := element.getD 1 0
  let e2 := element.getD 2 0
  let g := calculateDxDy (nodes e0) (f e0) (nodes e1) (f e1) (nodes e2) (f e2)
  ((r.add e0 g).add e1 g).add e2 g

/-- `gradient`, `examples/utils.py:54-78`. -/
def recoverGradient (elements : List (List ℕ)) (nodes : ℕ → ℕ → K) (f : ℕ → K) : ℕ → ℕ → K :=
  let r := elements.foldl (recoverElement nodes f) ⟨fun _ _ => 0, fun _ => 0⟩
  fun p k => r.result p k / r.norm p

/-- `grad_u`, `examples/utils.py:82-84`: `grad_u[p, a, k]`. -/
def recoverTensor (elements : List (List ℕ)) (nodes : ℕ → ℕ → K) (u : ℕ → ℕ → K) : ℕ → ℕ → ℕ → K :=
  fun p a k => recoverGradient elements nodes (fun q => u q a) p k

/-- `stress_u`, `examples/utils.py:86-94`, `stress_v`, lines 100-108: the entries that are assigned. -/
def hookeStress (mu la : K) (grad : ℕ → ℕ → ℕ → K) : ℕ → ℕ → ℕ → K := fun p a b =>
  match a, b with
  | 0, 0 => 2 * mu * grad p 0 0 + la * (grad p 0 0 + grad p 1 1)
  | 1, 1 => 2 * mu * grad p 1 1 + la * (grad p 0 0 + grad p 1 1)
  | 0, 1 => mu * (grad p 0 1 + grad p 1 0)
  | 1, 0 => mu * (grad p 0 1 + grad p 1 0)
  | _, _ => 0

/-- `viscoelastic_constitutive_law`, `examples/utils.py:81-109`. -/
def viscoelasticStress (mu la th ze : K) (elements : List (List ℕ)) (nodes displacement velocity : ℕ → ℕ → K) :
    ℕ → ℕ → ℕ → K := fun p a b =>
  hookeStress mu la (recoverTensor elements nodes displacement) p a b +
    hookeStress th ze (recoverTensor elements nodes velocity) p a b

/-- `stress_b`, `examples/utils.py:136-145`. -/
def relaxationStress (rlx : K) (grad : ℕ → ℕ → ℕ → K) : ℕ → ℕ → ℕ → K := fun p a b =>
  match a, b with
  | 0, 0 => 0 + 2 * rlx * grad p 0 0
  | 1, 1 => 0 + 2 * rlx * grad p 1 1
  | 0, 1 => 0 + rlx * (grad p 0 1 + grad p 1 0)
  | 1, 0 => 0 + (0 + rlx * (grad p 0 1 + grad p 1 0))
  | _, _ => 0

/-- `elastic_relaxation_constitutive_law`, `examples/utils.py:112-146`; `relaxation` is
`setup.relaxation(time)`. -/
def elasticRelaxationStress (mu la : K) (relaxation : ℕ → ℕ → ℕ → K) (elements : List (List ℕ))
    (nodes displacement absement : ℕ → ℕ → K) : ℕ → ℕ → ℕ → K := fun p a b =>
  hookeStress mu la (recoverTensor elements nodes displacement) p a b +
    relaxationStress (relaxation 1 0 1) (recoverTensor elements nodes absement) p a b

end Conmech
