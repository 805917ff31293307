import Verif.Model.Py
import Mathlib.Data.Fin.VecNotation
import Mathlib.Algebra.BigOperators.Fin

/-!
# Model of `simulators/fetorch/element/type/*.py`: the eight finite elements

Node local coordinates, shape functions and their coded local derivatives,
transcribed entry by entry.  `torch.stack` of 0d tensors is a `Fin`-indexed
vector; `zero`/`one` (`torch.zeros_like`, `torch.ones_like`) are `0`/`1`; Python
`1.0` is written `1`.  Local coordinates have the element's dimension (the Python
unpacking `c1, c2 = local_coords` raises otherwise).
-/

noncomputable section

namespace Hooke

/-- Node local coordinates, tri3.py:102-104. -/
def tri3Nodes : Fin 3 → Fin 2 → ℝ := ![
  ![0, 0],
  ![1, 0],
  ![0, 1]]

/-- `eval_shapefun`, tri3.py:129-131. -/
def tri3Shapefun (c : Fin 2 → ℝ) : Fin 3 → ℝ :=
  let c1 := c 0
  let c2 := c 1
  ![
  1 - c1 - c2,
  c1,
  c2]

/-- `eval_shapefun_local_deriv`, tri3.py:161-163: row `i` holds the
derivatives of shape function `i`. -/
def tri3LocalDeriv (_c : Fin 2 → ℝ) : Fin 3 → Fin 2 → ℝ :=
  ![
  ![-1,
    -1],
  ![1,
    0],
  ![0,
    1]]

/-- Node local coordinates, tri6.py:102-107. -/
def tri6Nodes : Fin 6 → Fin 2 → ℝ := ![
  ![0, 0],
  ![1, 0],
  ![0, 1],
  ![0.5, 0],
  ![0.5, 0.5],
  ![0, 0.5]]

/-- `eval_shapefun`, tri6.py:132-137. -/
def tri6Shapefun (c : Fin 2 → ℝ) : Fin 6 → ℝ :=
  let c1 := c 0
  let c2 := c 1
  ![
  -(1 - c1 - c2) * (1 - 2 * (1 - c1 - c2)),
  -c1 * (1 - 2 * c1),
  -c2 * (1 - 2 * c2),
  4 * c1 * (1 - c1 - c2),
  4 * c1 * c2,
  4 * c2 * (1 - c1 - c2)]

/-- `eval_shapefun_local_deriv`, tri6.py:166-172: row `i` holds the
derivatives of shape function `i`. -/
def tri6LocalDeriv (c : Fin 2 → ℝ) : Fin 6 → Fin 2 → ℝ :=
  let c1 := c 0
  let c2 := c 1
  ![
  ![1 - 4 * (1 - c1 - c2),
    1 - 4 * (1 - c1 - c2)],
  ![4 * c1 - 1,
    0],
  ![0,
    4 * c2 - 1],
  ![4 * (1 - 2 * c1 - c2),
    -4 * c1],
  ![4 * c2,
    4 * c1],
  ![-4 * c2,
    4 * (1 - c1 - 2 * c2)]]

/-- Node local coordinates, quad4.py:103-106. -/
def quad4Nodes : Fin 4 → Fin 2 → ℝ := ![
  ![-1, -1],
  ![1, -1],
  ![1, 1],
  ![-1, 1]]

/-- `eval_shapefun`, quad4.py:131-134. -/
def quad4Shapefun (c : Fin 2 → ℝ) : Fin 4 → ℝ :=
  let c1 := c 0
  let c2 := c 1
  ![
  0.25 * (1 - c1) * (1 - c2),
  0.25 * (1 + c1) * (1 - c2),
  0.25 * (1 + c1) * (1 + c2),
  0.25 * (1 - c1) * (1 + c2)]

/-- `eval_shapefun_local_deriv`, quad4.py:160-163: row `i` holds the
derivatives of shape function `i`. -/
def quad4LocalDeriv (c : Fin 2 → ℝ) : Fin 4 → Fin 2 → ℝ :=
  let c1 := c 0
  let c2 := c 1
  ![
  ![-0.25 * (1 - c2),
    -0.25 * (1 - c1)],
  ![0.25 * (1 - c2),
    -0.25 * (1 + c1)],
  ![0.25 * (1 + c2),
    0.25 * (1 + c1)],
  ![-0.25 * (1 + c2),
    0.25 * (1 - c1)]]

/-- Node local coordinates, quad8.py:103-110. -/
def quad8Nodes : Fin 8 → Fin 2 → ℝ := ![
  ![-1, -1],
  ![1, -1],
  ![1, 1],
  ![-1, 1],
  ![0, -1],
  ![1, 0],
  ![0, 1],
  ![-1, 0]]

/-- `eval_shapefun`, quad8.py:135-142. -/
def quad8Shapefun (c : Fin 2 → ℝ) : Fin 8 → ℝ :=
  let c1 := c 0
  let c2 := c 1
  ![
  0.25 * (1 - c1) * (1 - c2) * (-1 - c1 - c2),
  0.25 * (1 + c1) * (1 - c2) * (-1 + c1 - c2),
  0.25 * (1 + c1) * (1 + c2) * (-1 + c1 + c2),
  0.25 * (1 - c1) * (1 + c2) * (-1 - c1 + c2),
  0.5 * (1 - c1 ^ 2) * (1 - c2),
  0.5 * (1 + c1) * (1 - c2 ^ 2),
  0.5 * (1 - c1 ^ 2) * (1 + c2),
  0.5 * (1 - c1) * (1 - c2 ^ 2)]

/-- `eval_shapefun_local_deriv`, quad8.py:168-179: row `i` holds the
derivatives of shape function `i`. -/
def quad8LocalDeriv (c : Fin 2 → ℝ) : Fin 8 → Fin 2 → ℝ :=
  let c1 := c 0
  let c2 := c 1
  ![
  ![0.25 * (1 - c2) * (2 * c1 + c2),
    0.25 * (1 - c1) * (c1 + 2 * c2)],
  ![0.25 * (1 - c2) * (2 * c1 - c2),
    -0.25 * (1 + c1) * (c1 - 2 * c2)],
  ![0.25 * (1 + c2) * (2 * c1 + c2),
    0.25 * (1 + c1) * (c1 + 2 * c2)],
  ![0.25 * (1 + c2) * (2 * c1 - c2),
    -0.25 * (1 - c1) * (c1 - 2 * c2)],
  ![-c1 * (1 - c2),
    -0.5 * (1 - c1 ^ 2)],
  ![0.5 * (1 - c2 ^ 2),
    -c2 * (1 + c1)],
  ![-c1 * (1 + c2),
    0.5 * (1 - c1 ^ 2)],
  ![-0.5 * (1 - c2 ^ 2),
    -c2 * (1 - c1)]]

/-- Node local coordinates, tetra4.py:103-106. -/
def tetra4Nodes : Fin 4 → Fin 3 → ℝ := ![
  ![0, 0, 0],
  ![1, 0, 0],
  ![0, 1, 0],
  ![0, 0, 1]]

/-- `eval_shapefun`, tetra4.py:131-134. -/
def tetra4Shapefun (c : Fin 3 → ℝ) : Fin 4 → ℝ :=
  let c1 := c 0
  let c2 := c 1
  let c3 := c 2
  ![
  1 - c1 - c2 - c3,
  c1,
  c2,
  c3]

/-- `eval_shapefun_local_deriv`, tetra4.py:164-167: row `i` holds the
derivatives of shape function `i`. -/
def tetra4LocalDeriv (_c : Fin 3 → ℝ) : Fin 4 → Fin 3 → ℝ :=
  ![
  ![-1,
    -1,
    -1],
  ![1,
    0,
    0],
  ![0,
    1,
    0],
  ![0,
    0,
    1]]

/-- Node local coordinates, tetra10.py:103-112. -/
def tetra10Nodes : Fin 10 → Fin 3 → ℝ := ![
  ![0, 0, 0],
  ![1, 0, 0],
  ![0, 1, 0],
  ![0, 0, 1],
  ![0.5, 0, 0],
  ![0.5, 0.5, 0],
  ![0, 0.5, 0],
  ![0, 0, 0.5],
  ![0.5, 0, 0.5],
  ![0, 0.5, 0.5]]

/-- `eval_shapefun`, tetra10.py:137-146. -/
def tetra10Shapefun (c : Fin 3 → ℝ) : Fin 10 → ℝ :=
  let c1 := c 0
  let c2 := c 1
  let c3 := c 2
  ![
  (1 - c1 - c2 - c3) * (1 - 2 * (c1 + c2 + c3)),
  c1 * (2 * c1 - 1),
  c2 * (2 * c2 - 1),
  c3 * (2 * c3 - 1),
  4 * c1 * (1 - c1 - c2 - c3),
  4 * c1 * c2,
  4 * c2 * (1 - c1 - c2 - c3),
  4 * c3 * (1 - c1 - c2 - c3),
  4 * c1 * c3,
  4 * c2 * c3]

/-- `eval_shapefun_local_deriv`, tetra10.py:175-192: row `i` holds the
derivatives of shape function `i`. -/
def tetra10LocalDeriv (c : Fin 3 → ℝ) : Fin 10 → Fin 3 → ℝ :=
  let c1 := c 0
  let c2 := c 1
  let c3 := c 2
  ![
  ![4 * (c1 + c2 + c3) - 3,
    4 * (c1 + c2 + c3) - 3,
    4 * (c1 + c2 + c3) - 3],
  ![4 * c1 - 1,
    0,
    0],
  ![0,
    4 * c2 - 1,
    0],
  ![0,
    0,
    4 * c3 - 1],
  ![4 - 8 * c1 - 4 * c2 - 4 * c3,
    -4 * c1,
    -4 * c1],
  ![4 * c2,
    4 * c1,
    0],
  ![-4 * c2,
    4 - 4 * c1 - 8 * c2 - 4 * c3,
    -4 * c2],
  ![-4 * c3,
    -4 * c3,
    4 - 4 * c1 - 4 * c2 - 8 * c3],
  ![4 * c3,
    0,
    4 * c1],
  ![0,
    4 * c3,
    4 * c2]]

/-- Node local coordinates, hexa8.py:102-109. -/
def hexa8Nodes : Fin 8 → Fin 3 → ℝ := ![
  ![-1, -1, -1],
  ![1, -1, -1],
  ![1, 1, -1],
  ![-1, 1, -1],
  ![-1, -1, 1],
  ![1, -1, 1],
  ![1, 1, 1],
  ![-1, 1, 1]]

/-- `eval_shapefun`, hexa8.py:134-141. -/
def hexa8Shapefun (c : Fin 3 → ℝ) : Fin 8 → ℝ :=
  let c1 := c 0
  let c2 := c 1
  let c3 := c 2
  ![
  (1 / 8) * (1 - c1) * (1 - c2) * (1 - c3),
  (1 / 8) * (1 + c1) * (1 - c2) * (1 - c3),
  (1 / 8) * (1 + c1) * (1 + c2) * (1 - c3),
  (1 / 8) * (1 - c1) * (1 + c2) * (1 - c3),
  (1 / 8) * (1 - c1) * (1 - c2) * (1 + c3),
  (1 / 8) * (1 + c1) * (1 - c2) * (1 + c3),
  (1 / 8) * (1 + c1) * (1 + c2) * (1 + c3),
  (1 / 8) * (1 - c1) * (1 + c2) * (1 + c3)]

/-- `eval_shapefun_local_deriv`, hexa8.py:167-190: row `i` holds the
derivatives of shape function `i`. -/
def hexa8LocalDeriv (c : Fin 3 → ℝ) : Fin 8 → Fin 3 → ℝ :=
  let c1 := c 0
  let c2 := c 1
  let c3 := c 2
  ![
  ![-(1 / 8) * (1 - c2) * (1 - c3),
    -(1 / 8) * (1 - c1) * (1 - c3),
    -(1 / 8) * (1 - c1) * (1 - c2)],
  ![(1 / 8) * (1 - c2) * (1 - c3),
    -(1 / 8) * (1 + c1) * (1 - c3),
    -(1 / 8) * (1 + c1) * (1 - c2)],
  ![(1 / 8) * (1 + c2) * (1 - c3),
    (1 / 8) * (1 + c1) * (1 - c3),
    -(1 / 8) * (1 + c1) * (1 + c2)],
  ![-(1 / 8) * (1 + c2) * (1 - c3),
    (1 / 8) * (1 - c1) * (1 - c3),
    -(1 / 8) * (1 - c1) * (1 + c2)],
  ![-(1 / 8) * (1 - c2) * (1 + c3),
    -(1 / 8) * (1 - c1) * (1 + c3),
    (1 / 8) * (1 - c1) * (1 - c2)],
  ![(1 / 8) * (1 - c2) * (1 + c3),
    -(1 / 8) * (1 + c1) * (1 + c3),
    (1 / 8) * (1 + c1) * (1 - c2)],
  ![(1 / 8) * (1 + c2) * (1 + c3),
    (1 / 8) * (1 + c1) * (1 + c3),
    (1 / 8) * (1 + c1) * (1 + c2)],
  ![-(1 / 8) * (1 + c2) * (1 + c3),
    (1 / 8) * (1 - c1) * (1 + c3),
    (1 / 8) * (1 - c1) * (1 + c2)]]

/-- Node local coordinates, hexa20.py:102-121. -/
def hexa20Nodes : Fin 20 → Fin 3 → ℝ := ![
  ![-1, -1, -1],
  ![1, -1, -1],
  ![1, 1, -1],
  ![-1, 1, -1],
  ![-1, -1, 1],
  ![1, -1, 1],
  ![1, 1, 1],
  ![-1, 1, 1],
  ![0, -1, -1],
  ![1, 0, -1],
  ![0, 1, -1],
  ![-1, 0, -1],
  ![-1, -1, 0],
  ![1, -1, 0],
  ![1, 1, 0],
  ![-1, 1, 0],
  ![0, -1, 1],
  ![1, 0, 1],
  ![0, 1, 1],
  ![-1, 0, 1]]

/-- `eval_shapefun`, hexa20.py:146-165. -/
def hexa20Shapefun (c : Fin 3 → ℝ) : Fin 20 → ℝ :=
  let c1 := c 0
  let c2 := c 1
  let c3 := c 2
  ![
  (1 / 8) * (1 - c1) * (1 - c2) * (1 - c3) * (-2 - c1 - c2 - c3),
  (1 / 8) * (1 + c1) * (1 - c2) * (1 - c3) * (-2 + c1 - c2 - c3),
  (1 / 8) * (1 + c1) * (1 + c2) * (1 - c3) * (-2 + c1 + c2 - c3),
  (1 / 8) * (1 - c1) * (1 + c2) * (1 - c3) * (-2 - c1 + c2 - c3),
  (1 / 8) * (1 - c1) * (1 - c2) * (1 + c3) * (-2 - c1 - c2 + c3),
  (1 / 8) * (1 + c1) * (1 - c2) * (1 + c3) * (-2 + c1 - c2 + c3),
  (1 / 8) * (1 + c1) * (1 + c2) * (1 + c3) * (-2 + c1 + c2 + c3),
  (1 / 8) * (1 - c1) * (1 + c2) * (1 + c3) * (-2 - c1 + c2 + c3),
  0.25 * (1 - c1 ^ 2) * (1 - c2) * (1 - c3),
  0.25 * (1 + c1) * (1 - c2 ^ 2) * (1 - c3),
  0.25 * (1 - c1 ^ 2) * (1 + c2) * (1 - c3),
  0.25 * (1 - c1) * (1 - c2 ^ 2) * (1 - c3),
  0.25 * (1 - c1) * (1 - c2) * (1 - c3 ^ 2),
  0.25 * (1 + c1) * (1 - c2) * (1 - c3 ^ 2),
  0.25 * (1 + c1) * (1 + c2) * (1 - c3 ^ 2),
  0.25 * (1 - c1) * (1 + c2) * (1 - c3 ^ 2),
  0.25 * (1 - c1 ^ 2) * (1 - c2) * (1 + c3),
  0.25 * (1 + c1) * (1 - c2 ^ 2) * (1 + c3),
  0.25 * (1 - c1 ^ 2) * (1 + c2) * (1 + c3),
  0.25 * (1 - c1) * (1 - c2 ^ 2) * (1 + c3)]

/-- `eval_shapefun_local_deriv`, hexa20.py:191-270: row `i` holds the
derivatives of shape function `i`. -/
def hexa20LocalDeriv (c : Fin 3 → ℝ) : Fin 20 → Fin 3 → ℝ :=
  let c1 := c 0
  let c2 := c 1
  let c3 := c 2
  ![
  ![0.25 * (c1 + 0.5 * (c2 + c3 + 1)) * (c2 - 1) * (c3 - 1),
    0.25 * (c2 + 0.5 * (c1 + c3 + 1)) * (c1 - 1) * (c3 - 1),
    0.25 * (c3 + 0.5 * (c1 + c2 + 1)) * (c1 - 1) * (c2 - 1)],
  ![0.25 * (c1 - 0.5 * (c2 + c3 + 1)) * (c2 - 1) * (c3 - 1),
    -0.25 * (c2 - 0.5 * (c1 - c3 - 1)) * (c1 + 1) * (c3 - 1),
    -0.25 * (c3 - 0.5 * (c1 - c2 - 1)) * (c1 + 1) * (c2 - 1)],
  ![-0.25 * (c1 + 0.5 * (c2 - c3 - 1)) * (c2 + 1) * (c3 - 1),
    -0.25 * (c2 + 0.5 * (c1 - c3 - 1)) * (c1 + 1) * (c3 - 1),
    0.25 * (c3 - 0.5 * (c1 + c2 - 1)) * (c1 + 1) * (c2 + 1)],
  ![-0.25 * (c1 - 0.5 * (c2 - c3 - 1)) * (c2 + 1) * (c3 - 1),
    0.25 * (c2 - 0.5 * (c1 + c3 + 1)) * (c1 - 1) * (c3 - 1),
    -0.25 * (c3 + 0.5 * (c1 - c2 + 1)) * (c1 - 1) * (c2 + 1)],
  ![-0.25 * (c1 + 0.5 * (c2 - c3 + 1)) * (c2 - 1) * (c3 + 1),
    -0.25 * (c2 + 0.5 * (c1 - c3 + 1)) * (c1 - 1) * (c3 + 1),
    0.25 * (c3 - 0.5 * (c1 + c2 + 1)) * (c1 - 1) * (c2 - 1)],
  ![-0.25 * (c1 - 0.5 * (c2 - c3 + 1)) * (c2 - 1) * (c3 + 1),
    0.25 * (c2 - 0.5 * (c1 + c3 - 1)) * (c1 + 1) * (c3 + 1),
    -0.25 * (c3 + 0.5 * (c1 - c2 - 1)) * (c1 + 1) * (c2 - 1)],
  ![0.25 * (c1 + 0.5 * (c2 + c3 - 1)) * (c2 + 1) * (c3 + 1),
    0.25 * (c2 + 0.5 * (c1 + c3 - 1)) * (c1 + 1) * (c3 + 1),
    0.25 * (c3 + 0.5 * (c1 + c2 - 1)) * (c1 + 1) * (c2 + 1)],
  ![0.25 * (c1 - 0.5 * (c2 + c3 - 1)) * (c2 + 1) * (c3 + 1),
    -0.25 * (c2 - 0.5 * (c1 - c3 + 1)) * (c1 - 1) * (c3 + 1),
    -0.25 * (c3 - 0.5 * (c1 - c2 + 1)) * (c1 - 1) * (c2 + 1)],
  ![-0.5 * c1 * (c2 - 1) * (c3 - 1),
    -0.25 * (c1 ^ 2 - 1) * (c3 - 1),
    -0.25 * (c1 ^ 2 - 1) * (c2 - 1)],
  ![0.25 * (c2 ^ 2 - 1) * (c3 - 1),
    0.5 * c2 * (c1 + 1) * (c3 - 1),
    0.25 * (c1 + 1) * (c2 ^ 2 - 1)],
  ![0.5 * c1 * (c2 + 1) * (c3 - 1),
    0.25 * (c1 ^ 2 - 1) * (c3 - 1),
    0.25 * (c1 ^ 2 - 1) * (c2 + 1)],
  ![-0.25 * (c2 ^ 2 - 1) * (c3 - 1),
    -0.5 * c2 * (c1 - 1) * (c3 - 1),
    -0.25 * (c1 - 1) * (c2 ^ 2 - 1)],
  ![-0.25 * (c2 - 1) * (c3 ^ 2 - 1),
    -0.25 * (c1 - 1) * (c3 ^ 2 - 1),
    -0.5 * c3 * (c1 - 1) * (c2 - 1)],
  ![0.25 * (c2 - 1) * (c3 ^ 2 - 1),
    0.25 * (c1 + 1) * (c3 ^ 2 - 1),
    0.5 * c3 * (c1 + 1) * (c2 - 1)],
  ![-0.25 * (c2 + 1) * (c3 ^ 2 - 1),
    -0.25 * (c1 + 1) * (c3 ^ 2 - 1),
    -0.5 * c3 * (c1 + 1) * (c2 + 1)],
  ![0.25 * (c2 + 1) * (c3 ^ 2 - 1),
    0.25 * (c1 - 1) * (c3 ^ 2 - 1),
    0.5 * c3 * (c1 - 1) * (c2 + 1)],
  ![0.5 * c1 * (c2 - 1) * (c3 + 1),
    0.25 * (c1 ^ 2 - 1) * (c3 + 1),
    0.25 * (c1 ^ 2 - 1) * (c2 - 1)],
  ![-0.25 * (c2 ^ 2 - 1) * (c3 + 1),
    -0.5 * c2 * (c1 + 1) * (c3 + 1),
    -0.25 * (c1 + 1) * (c2 ^ 2 - 1)],
  ![-0.5 * c1 * (c2 + 1) * (c3 + 1),
    -0.25 * (c1 ^ 2 - 1) * (c3 + 1),
    -0.25 * (c1 ^ 2 - 1) * (c2 + 1)],
  ![0.25 * (c2 ^ 2 - 1) * (c3 + 1),
    0.5 * c2 * (c1 - 1) * (c3 + 1),
    0.25 * (c1 - 1) * (c2 ^ 2 - 1)]]

/-- The eight element classes (`element/type/*.py`). -/
inductive ElementType
  | tri3
  | tri6
  | quad4
  | quad8
  | tetra4
  | tetra10
  | hexa8
  | hexa20
  deriving DecidableEq, Repr

namespace ElementType

/-- `_n_dof_node`: line 80 of each element file. -/
def dim : ElementType → ℕ
  | tri3 => 2
  | tri6 => 2
  | quad4 => 2
  | quad8 => 2
  | tetra4 => 3
  | tetra10 => 3
  | hexa8 => 3
  | hexa20 => 3

/-- `_n_node`: line 78 of each element file. -/
def nNode : ElementType → ℕ
  | tri3 => 3
  | tri6 => 6
  | quad4 => 4
  | quad8 => 8
  | tetra4 => 4
  | tetra10 => 10
  | hexa8 => 8
  | hexa20 => 20

/-- `get_nodes_local_coords` (element/type/interface.py), set by `_set_nodes_local_coords`. -/
def nodes : (e : ElementType) → Fin e.nNode → Fin e.dim → ℝ
  | tri3 => tri3Nodes
  | tri6 => tri6Nodes
  | quad4 => quad4Nodes
  | quad8 => quad8Nodes
  | tetra4 => tetra4Nodes
  | tetra10 => tetra10Nodes
  | hexa8 => hexa8Nodes
  | hexa20 => hexa20Nodes

/-- `eval_shapefun` of each element. -/
def shapefun : (e : ElementType) → (Fin e.dim → ℝ) → Fin e.nNode → ℝ
  | tri3 => tri3Shapefun
  | tri6 => tri6Shapefun
  | quad4 => quad4Shapefun
  | quad8 => quad8Shapefun
  | tetra4 => tetra4Shapefun
  | tetra10 => tetra10Shapefun
  | hexa8 => hexa8Shapefun
  | hexa20 => hexa20Shapefun

/-- `eval_shapefun_local_deriv` of each element. -/
def localDeriv : (e : ElementType) → (Fin e.dim → ℝ) → Fin e.nNode → Fin e.dim → ℝ
  | tri3 => tri3LocalDeriv
  | tri6 => tri6LocalDeriv
  | quad4 => quad4LocalDeriv
  | quad8 => quad8LocalDeriv
  | tetra4 => tetra4LocalDeriv
  | tetra10 => tetra10LocalDeriv
  | hexa8 => hexa8LocalDeriv
  | hexa20 => hexa20LocalDeriv

/-- `_admissible_gauss_quadratures`: tri3.py:178, tri6.py:187, quad4.py:178, quad8.py:194, tetra4.py:182, tetra10.py:207, hexa8.py:205, hexa20.py:285. -/
def admissibleGauss : ElementType → List ℕ
  | tri3 => [1]
  | tri6 => [1, 3]
  | quad4 => [1, 4]
  | quad8 => [4, 9]
  | tetra4 => [1, 4]
  | tetra10 => [4]
  | hexa8 => [1, 8]
  | hexa20 => [8, 27]

end ElementType

end Hooke
