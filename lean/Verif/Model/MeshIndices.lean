import Verif.Model.BoundariesFactory
/-
Model of the counts and index ranges of `Mesh` (`conmech/mesh/mesh.py`) and `Boundaries`
(`conmech/mesh/boundaries.py`). A Python `slice(a, b)` with non-negative bounds is the pair `(a, b)`;
`slice(b)` is `(0, b)`.
-/
namespace Conmech

/-- The four numbers everything is computed from: `len(nodes)` and the three `node_count`s,
`conmech/mesh/boundaries.py:116-125`, `conmech/mesh/mesh.py:152-165,208-209`. -/
structure Counts where
  nodes : Int
  contact : Int
  neumann : Int
  dirichlet : Int

/-- The counts of a constructed mesh. -/
def MeshBoundaries.counts {α : Type _} (m : MeshBoundaries α) : Counts :=
  { nodes := m.nodes.length, contact := m.contactCount, neumann := m.neumannCount,
    dirichlet := m.dirichletCount }

namespace Counts

/-- `Mesh.independent_nodes_count`, `conmech/mesh/mesh.py:168-169`. -/
def independentNodesCount (c : Counts) : Int := c.nodes - c.dirichlet

/-- `Mesh.free_nodes_count`, `conmech/mesh/mesh.py:172-174`. -/
def freeNodesCount (c : Counts) : Int := c.independentNodesCount - c.contact - c.dirichlet

/-- `Boundaries.boundary_nodes_count`, `conmech/mesh/boundaries.py:92-93`. -/
def boundaryNodesCount (c : Counts) : Int := c.contact + c.neumann + c.dirichlet

/-- `Boundaries.boundary_indices`, `conmech/mesh/boundaries.py:96-97`, and `Mesh.boundary_indices`,
`conmech/mesh/mesh.py:177-178`. -/
def boundaryIndices (c : Counts) : Int × Int := (0, c.boundaryNodesCount)

/-- `Mesh.contact_indices`, `conmech/mesh/mesh.py:185-186`. -/
def contactIndices (c : Counts) : Int × Int := (0, c.contact)

/-- `Mesh.neumann_indices`, `conmech/mesh/mesh.py:189-193`. -/
def neumannIndices (c : Counts) : Int × Int := (c.contact, c.contact + c.neumann)

/-- `Mesh.dirichlet_indices`, `conmech/mesh/mesh.py:196-197`. -/
def dirichletIndices (c : Counts) : Int × Int := (c.nodes - c.dirichlet, c.nodes)

/-- `Mesh.independent_indices`, `conmech/mesh/mesh.py:200-201`. -/
def independentIndices (c : Counts) : Int × Int := (0, c.independentNodesCount)

/-- `Mesh.free_indices`, `conmech/mesh/mesh.py:204-205`. -/
def freeIndices (c : Counts) : Int × Int := (c.contact, c.independentNodesCount)

/-- `Mesh.inner_nodes_count`, `conmech/mesh/mesh.py:216-217`. -/
def innerNodesCount (c : Counts) : Int := c.nodes - c.boundaryNodesCount

end Counts
end Conmech
