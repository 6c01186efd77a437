import Verif.Model.Layout
import Verif.Lemmas.Schur
/-!
C17: vector layouts.
-/
namespace Conmech

/-- Entry `coordinate * node_count + node` of the stacked vector is that coordinate of that node. -/
theorem C17_stack_entry {K : Type _} (n dim : ℕ) (data : ℕ → ℕ → K) (node coord : ℕ)
    (hn : node < n) (_hc : coord < dim) :
    stackColumn n data (coord * n + node) = data node coord := by
  simp only [stackColumn, flattenC, transposed, block_div coord hn, block_mod coord hn]

example : stackColumn 3 (fun node coord => 10 * node + coord) (1 * 3 + 2) = 21 := by decide

/-- Unstacking a stacked array of nodal vectors gives the array back. -/
theorem C17_unstack_stack {K : Type _} (n dim : ℕ) (data : ℕ → ℕ → K) (node coord : ℕ)
    (hn : node < n) (hc : coord < dim) :
    unstack (dim * n) dim (stackColumn n data) node coord = data node coord := by
  rw [← C17_stack_entry n dim data node coord hn hc]
  simp only [unstack, reshapeF, Nat.mul_div_cancel_left n (by omega : 0 < dim)]
  congr 1; ring

/-- Stacking an unstacked vector gives the vector back. -/
theorem C17_stack_unstack {K : Type _} (n dim : ℕ) (v : ℕ → K) (k : ℕ) (hk : k < dim * n) :
    stackColumn n (unstack (dim * n) dim v) k = v k := by
  obtain ⟨h1, -, h3⟩ := div_mod_block hk
  have hd : 0 < dim := Nat.lt_of_le_of_lt (Nat.zero_le _) h1
  simp only [stackColumn, flattenC, transposed, unstack, reshapeF, Nat.mul_div_cancel_left n hd]
  congr 1; rw [Nat.mul_comm]; omega

/-- The reshaping in the state object is the same layout: row `node` and column `coord` of the
stored array is entry `coord * node_count + node` of the solution vector. -/
theorem C17_state_layout {K : Type _} (n dim : ℕ) (v : ℕ → K) (node coord : ℕ)
    (_hn : node < n) (hc : coord < dim) :
    stateReshape (dim * n) dim v node coord = v (coord * n + node) ∧
      stateReshape (dim * n) dim v node coord = unstack (dim * n) dim v node coord := by
  simp only [stateReshape, transposed, reshapeC, unstack, reshapeF,
    Nat.mul_div_cancel_left n (by omega : 0 < dim)]
  refine ⟨trivial, ?_⟩
  congr 1; ring

example : (List.range 3).map (fun node => (List.range 2).map (stateReshape 6 2 (fun k => k) node)) =
    [[0, 3], [1, 4], [2, 5]] := by decide

end Conmech
