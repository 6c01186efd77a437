import Verif.Model.BodyForces
import Verif.Props.MassStiffness
import Verif.Spec.Normals
/-!
C30, C31, C32, C33: integrated forces and the caches of sources and of the relaxation operator.
-/
namespace Conmech
open Spec

section
variable {K : Type _} [Field K] [LinearOrder K] [IsStrictOrderedRing K]
variable {N : ℕ} {elements : List (List ℕ)} {nodes : ℕ → ℕ → K}

theorem inner_total {d : ℕ} {feat : (ℕ → ℕ → K) → ℕ → ℕ → List K} {size : (ℕ → ℕ → K) → K}
    {g : (ℕ → ℕ → K) → ℕ → ℕ → K} (hd : 0 < d) (hv : ValidElements d N elements)
    (h : AllLocal d feat elements nodes size g) (f : ℕ → ℕ → K) (a : ℕ) :
    ∑ p ∈ Finset.range N, integratedInner N (edgesFeatures (d + 1) feat elements nodes 0) f p a =
      sumElements elements fun _ e => size (vertices nodes e) *
        ((∑ i ∈ Finset.range (d + 1), valuesOn e (fun p => f p a) i) / ((d : K) + 1)) := by
  have : ∑ p ∈ Finset.range N, integratedInner N (edgesFeatures (d + 1) feat elements nodes 0) f p a =
      form N N (edgesFeatures (d + 1) feat elements nodes 0) (fun _ => 1) fun p => f p a := by
    simp [integratedInner, form]
  rw [this, form_vol hv h]
  refine sumElements_congr fun t _ => ?_
  simp only [valuesOn, Finset.sum_const, Finset.card_range, nsmul_eq_mul, mul_one, Nat.cast_add,
    Nat.cast_one, one_mul]
  have : (0 : K) < d := by exact_mod_cast hd
  field_simp
  ring

/-- C30: on a triangular mesh the integrated inner forces sum to area times mean nodal force. -/
theorem C30_total2 (hv : ValidElements 2 N elements) (hn : Nondegenerate2 elements nodes)
    (f : ℕ → ℕ → K) (a : ℕ) :
    ∑ p ∈ Finset.range N, integratedInner N (basicMatrices2 elements nodes).volumeAtNodes f p a =
      sumElements elements fun _ e => area (vertices nodes e) *
        ((valuesOn e (fun p => f p a) 0 + valuesOn e (fun p => f p a) 1 +
          valuesOn e (fun p => f p a) 2) / 3) := by
  refine (inner_total (by omega) hv (Plane.allLocal hn) f a).trans (sumElements_congr fun t _ => ?_)
  simp only [Finset.sum_range_succ, Finset.sum_range_zero, zero_add]
  norm_num

/-- C30: on a tetrahedral mesh the integrated inner forces sum to volume times mean nodal force. -/
theorem C30_total3 (hv : ValidElements 3 N elements) (hn : Nondegenerate3 elements nodes)
    (f : ℕ → ℕ → K) (a : ℕ) :
    ∑ p ∈ Finset.range N, integratedInner N (basicMatrices3 elements nodes).volumeAtNodes f p a =
      sumElements elements fun _ e => Spec.volume (vertices nodes e) *
        ((valuesOn e (fun p => f p a) 0 + valuesOn e (fun p => f p a) 1 +
          valuesOn e (fun p => f p a) 2 + valuesOn e (fun p => f p a) 3) / 4) := by
  refine (inner_total (by omega) hv (Space.allLocal hn) f a).trans (sumElements_congr fun t _ => ?_)
  simp only [Finset.sum_range_succ, Finset.sum_range_zero, zero_add]
  norm_num

/-- C30: a constant force has the total force times size of the body. -/
theorem C30_constant (c : ℕ → K) (a : ℕ) :
    (ValidElements 2 N elements → Nondegenerate2 elements nodes →
      ∑ p ∈ Finset.range N,
        integratedInner N (basicMatrices2 elements nodes).volumeAtNodes (fun _ => c) p a =
        c a * sumElements elements fun _ e => area (vertices nodes e)) ∧
    (ValidElements 3 N elements → Nondegenerate3 elements nodes →
      ∑ p ∈ Finset.range N,
        integratedInner N (basicMatrices3 elements nodes).volumeAtNodes (fun _ => c) p a =
        c a * sumElements elements fun _ e => Spec.volume (vertices nodes e)) := by
  constructor
  · intro hv hn
    rw [C30_total2 hv hn, ← sumElements_mul]
    refine sumElements_congr fun t _ => ?_
    simp only [valuesOn]; ring
  · intro hv hn
    rw [C30_total3 hv hn, ← sumElements_mul]
    refine sumElements_congr fun t _ => ?_
    simp only [valuesOn]; ring

/-- The share of node `p` in a constant force is its share of the size of the body, in both
dimensions. -/
theorem C30_constant_share (c : ℕ → K) (a p : ℕ) (hp : p < N) :
    (ValidElements 2 N elements → Nondegenerate2 elements nodes →
      integratedInner N (basicMatrices2 elements nodes).volumeAtNodes (fun _ => c) p a =
        c a * lumped 2 elements nodes area p) ∧
    (ValidElements 3 N elements → Nondegenerate3 elements nodes →
      integratedInner N (basicMatrices3 elements nodes).volumeAtNodes (fun _ => c) p a =
        c a * lumped 3 elements nodes Spec.volume p) := by
  constructor
  · intro hv hn
    unfold integratedInner
    rw [← Finset.sum_mul, (C23_total2 hv hn).2.2.2 p hp, mul_comm]
  · intro hv hn
    unfold integratedInner
    rw [← Finset.sum_mul, (C23_total3 hv hn).2.2.2 p hp, mul_comm]

/-- The length of the segment between the first two points. -/
def Spec.segmentLength (sqrt : K → K) (X : ℕ → ℕ → K) : K :=
  sqrt ((X 0 0 - X 1 0) * (X 0 0 - X 1 0) + (X 0 1 - X 1 1) * (X 0 1 - X 1 1))

/-- The inner product of two sides of a triangle in space with the common vertex `0`. -/
def Spec.sideProduct (X : ℕ → ℕ → K) (i j : ℕ) : K :=
  ∑ k ∈ Finset.range 3, (X i k - X 0 k) * (X j k - X 0 k)

/-- The area of a triangle in space, from the Gram determinant of two sides. -/
def Spec.triangleArea (sqrt : K → K) (X : ℕ → ℕ → K) : K :=
  sqrt (sideProduct X 1 1 * sideProduct X 2 2 - sideProduct X 1 2 * sideProduct X 1 2) / 2

/-- The size of a boundary surface: a segment in the plane, a triangle in space. -/
def Spec.surfaceSize (sqrt : K → K) (dim : ℕ) (X : ℕ → ℕ → K) : K :=
  if dim = 2 then segmentLength sqrt X else triangleArea sqrt X

omit [LinearOrder K] [IsStrictOrderedRing K] in
theorem elementVolumePart_eq (sqrt : K → K) (dim : ℕ) (hd : dim = 2 ∨ dim = 3) (X : ℕ → ℕ → K) :
    elementVolumePart sqrt dim dim X = some (surfaceSize sqrt dim X / dim) := by
  rcases hd with rfl | rfl
  · simp only [elementVolumePart, if_true, surfaceSize, segmentLength, euclideanNorm]
    congr 3
    simp only [Finset.sum_range_succ, Finset.sum_range_zero]
    ring
  · simp only [elementVolumePart, if_true, surfaceSize, triangleArea, euclideanNorm]
    norm_num
    congr 1
    rw [mul_comm, div_eq_mul_inv]
    congr 2
    simp only [sideProduct, crossProduct, Finset.sum_range_succ, Finset.sum_range_zero]
    norm_num
    ring

omit [LinearOrder K] [IsStrictOrderedRing K] in
theorem surface_foldlM (sqrt : K → K) (dim : ℕ) (hd : dim = 2 ∨ dim = 3) (nodes : ℕ → ℕ → K)
    (surfaces : List (List ℕ)) (hl : ∀ s ∈ surfaces, s.length = dim) (s0 : ℕ → K) :
    ∃ s, surfaces.foldlM (fun (s : ℕ → K) surface => do
        let part ← elementVolumePart sqrt dim surface.length (elementNodes nodes surface)
        return fun p => if p ∈ surface then s p + part else s p) s0 = some s ∧
      ∀ p, s p = s0 p + (surfaces.map fun f =>
        if p ∈ f then surfaceSize sqrt dim (vertices nodes f) / dim else 0).sum := by
  induction surfaces generalizing s0 with
  | nil => exact ⟨s0, rfl, by simp⟩
  | cons f l ih =>
    have hf := hl f (by simp)
    obtain ⟨s, hs, h⟩ := ih (fun s hs => hl s (by simp [hs]))
      (fun p => if p ∈ f then s0 p + surfaceSize sqrt dim (vertices nodes f) / dim else s0 p)
    refine ⟨s, ?_, ?_⟩
    · rw [List.foldlM_cons, hf, elementVolumePart_eq sqrt dim hd]
      exact hs
    · intro p
      rw [h p, List.map_cons, List.sum_cons]
      split_ifs <;> ring

omit [LinearOrder K] [IsStrictOrderedRing K] in
/-- C31: in the plane and in space the weight of a node is its share, one `dim`-th, of the size of every
surface it belongs to, and the weights sum to the total size of the surfaces. -/
theorem C31_weights (sqrt : K → K) (dim : ℕ) (hd : dim = 2 ∨ dim = 3) (hdim : (dim : K) ≠ 0)
    (nodes : ℕ → ℕ → K) (N : ℕ) (surfaces : List (List ℕ))
    (hl : ∀ f ∈ surfaces, f.length = dim ∧ f.Nodup ∧ ∀ p ∈ f, p < N) :
    ∃ s, surfacePerBoundaryNode sqrt dim surfaces nodes = some s ∧
      (∀ p, s p = (surfaces.map fun f =>
        if p ∈ f then surfaceSize sqrt dim (vertices nodes f) / dim else 0).sum) ∧
      ∑ p ∈ Finset.range N, s p = (surfaces.map fun f => surfaceSize sqrt dim (vertices nodes f)).sum := by
  obtain ⟨s, hs, h⟩ := surface_foldlM sqrt dim hd nodes surfaces (fun f hf => (hl f hf).1) fun _ => 0
  refine ⟨s, hs, fun p => by rw [h p, zero_add], ?_⟩
  rw [Finset.sum_congr rfl fun p _ => by rw [h p, zero_add]]
  clear hs h s
  induction surfaces with
  | nil => simp
  | cons f l ih =>
    simp only [List.map_cons, List.sum_cons]
    rw [Finset.sum_add_distrib, ih fun f hf => hl f (by simp [hf])]
    congr 1
    obtain ⟨h1, h2, h3⟩ := hl f (by simp)
    rw [← Finset.sum_filter]
    have hcard : (Finset.range N).filter (fun p => p ∈ f) = f.toFinset := by
      ext p
      simp only [Finset.mem_filter, Finset.mem_range, List.mem_toFinset]
      exact ⟨fun h => h.2, fun h => ⟨h3 p h, h⟩⟩
    rw [hcard, Finset.sum_const, List.toFinset_card_of_nodup h2, h1, nsmul_eq_mul, mul_div_cancel₀ _ hdim]

/-- C31: with a square root, the sizes are lengths and areas: nonnegative numbers with the right
squares. -/
theorem C31_sizes (sqrt : K → K) (hs : IsSqrt sqrt) (X : ℕ → ℕ → K) :
    (0 ≤ surfaceSize sqrt 2 X ∧ surfaceSize sqrt 2 X ^ 2 =
      (X 0 0 - X 1 0) ^ 2 + (X 0 1 - X 1 1) ^ 2) ∧
    (0 ≤ surfaceSize sqrt 3 X ∧ (2 * surfaceSize sqrt 3 X) ^ 2 =
      sideProduct X 1 1 * sideProduct X 2 2 - sideProduct X 1 2 ^ 2) := by
  constructor
  · obtain ⟨h1, h2⟩ := hs _ (add_nonneg (mul_self_nonneg (X 0 0 - X 1 0)) (mul_self_nonneg (X 0 1 - X 1 1)))
    simp only [surfaceSize, if_true, segmentLength]
    exact ⟨h1, by rw [pow_two, h2]; ring⟩
  · have hg : 0 ≤ sideProduct X 1 1 * sideProduct X 2 2 - sideProduct X 1 2 * sideProduct X 1 2 := by
      simp only [sideProduct, Finset.sum_range_succ, Finset.sum_range_zero, zero_add]
      generalize X 1 0 - X 0 0 = a; generalize X 1 1 - X 0 1 = b; generalize X 1 2 - X 0 2 = c
      generalize X 2 0 - X 0 0 = d; generalize X 2 1 - X 0 1 = e; generalize X 2 2 - X 0 2 = f
      have : (a * a + b * b + c * c) * (d * d + e * e + f * f) -
          (a * d + b * e + c * f) * (a * d + b * e + c * f) =
          (a * e - b * d) * (a * e - b * d) + (a * f - c * d) * (a * f - c * d) +
          (b * f - c * e) * (b * f - c * e) := by ring
      rw [this]
      have := mul_self_nonneg (a * e - b * d)
      have := mul_self_nonneg (a * f - c * d)
      have := mul_self_nonneg (b * f - c * e)
      linarith
    obtain ⟨h1, h2⟩ := hs _ hg
    simp only [surfaceSize, triangleArea]
    norm_num
    refine ⟨by linarith, ?_⟩
    rw [mul_div_cancel₀ _ (two_ne_zero), pow_two, h2]; ring

omit [LinearOrder K] [IsStrictOrderedRing K] in
/-- C30, C31: what `integrate` returns at degree of freedom `a * N + p` is the inner force plus the
weighted outer force. -/
theorem C31_integrate (sqrt : K → K) (dim : ℕ) (hd : dim = 2 ∨ dim = 3)
    (nodes : ℕ → ℕ → K) (N : ℕ) (neumann : List (List ℕ)) (vol : ℕ → ℕ → K)
    (hl : ∀ f ∈ neumann, f.length = dim) (inner outer : ℕ → ℕ → K) :
    ∃ r, integrateForces sqrt dim N vol neumann nodes inner outer = some r ∧
      ∀ a, ∀ p < N, r (a * N + p) = integratedInner N vol inner p a +
        (neumann.map fun f =>
          if p ∈ f then surfaceSize sqrt dim (vertices nodes f) / dim else 0).sum * outer p a := by
  obtain ⟨s, hs, h⟩ := surface_foldlM sqrt dim hd nodes neumann hl fun _ => 0
  have hs : surfacePerBoundaryNode sqrt dim neumann nodes = some s := hs
  refine ⟨fun r => integratedInner N vol inner (r % N) (r / N) + s (r % N) * outer (r % N) (r / N), ?_, ?_⟩
  · simp [integrateForces, integratedOuter, hs]
  · intro a p hp
    simp only [block_div a hp, block_mod a hp, h p, zero_add]

end

section
variable {P T V : Type} [DecidableEq T]
open FieldSource

/-- The replies to a list of requests. -/
def FieldSource.replies (s : FieldSource P T V) (nodes : List P) : List T → List (Option (Option (List V)))
  | [] => []
  | t :: ts => (s.nodeSource nodes t).1 :: replies (s.nodeSource nodes t).2 nodes ts

/-- C32, part: whatever the state, a request for a time other than the last one is answered by the
source at that time. -/
theorem C32_new_time_partial (s : FieldSource P T V) (f : P → T → V) (hf : s.source = some f)
    (nodes : List P) (time : T) (h : s.timestamp ≠ some time) :
    (s.nodeSource nodes time).1 = some (some (nodes.map fun x => f x time)) := by
  unfold nodeSource
  rw [if_pos (Ne.symm h), hf]

/-- C32, part: from a fresh object with a source, any sequence of requests for the same nodes is
answered by the source at the requested times. Missing: histories with `clear` or with a change of the
source or the nodes, see `C32_clear_wrong`, `C32_source_wrong`, `C32_nodes_wrong`. -/
theorem C32_requests_partial (f : P → T → V) (nodes : List P) (times : List T) :
    FieldSource.replies { source := some f } nodes times =
      times.map fun t => some (some (nodes.map fun x => f x t)) := by
  suffices ∀ s : FieldSource P T V, s.source = some f →
      (∀ t, s.timestamp = some t → s.cache = some (nodes.map fun x => f x t)) →
      s.replies nodes times = times.map fun t => some (some (nodes.map fun x => f x t)) from
    this _ rfl (by simp)
  induction times with
  | nil => intro s _ _; rfl
  | cons t ts ih =>
    intro s hs hc
    have : s.nodeSource nodes t = (some (some (nodes.map fun x => f x t)),
        { s with cache := some (nodes.map fun x => f x t), timestamp := some t }) := by
      unfold nodeSource
      by_cases h : some t = s.timestamp
      · rw [if_neg (not_not.2 h), hc t h.symm]
        cases s
        simp only at h hc
        subst h
        simp [hc t rfl]
      · rw [if_pos h, hs]
    rw [replies, List.map_cons, this]
    congr 1
    refine ih _ hs ?_
    rintro t' ⟨⟩
    rfl

/-- C32 fails: after `clear` the last time requested yields nothing, for every source and node list. -/
theorem C32_clear_wrong (f : P → T → V) (nodes : List P) (time : T) :
    let s := (nodeSource { source := some f } nodes time).2
    (s.clear.nodeSource nodes time).1 = some none := by
  simp [nodeSource, clear]

/-- C32 fails: a new source is not asked for the last time requested; the values of the old one are
returned. -/
theorem C32_source_wrong (f g : P → T → V) (nodes : List P) (time : T) :
    let s := (nodeSource { source := some f } nodes time).2
    ((s.setSource g).nodeSource nodes time).1 = some (some (nodes.map fun x => f x time)) := by
  simp [nodeSource, setSource]

/-- C32 fails: other nodes get the values at the old ones. -/
theorem C32_nodes_wrong (f : P → T → V) (nodes nodes' : List P) (time : T) :
    let s := (nodeSource { source := some f } nodes time).2
    (s.nodeSource nodes' time).1 = some (some (nodes.map fun x => f x time)) := by
  simp [nodeSource]

end

section
variable {W C R T : Type} [DecidableEq C]
open RelaxationCache

/-- What may happen to the relaxation operator. -/
inductive RelaxationEvent (W T : Type) where
  | request (time : T)
  | reassemble (w : W)

/-- The replies of a history: `none` for reassemblies. -/
def RelaxationCache.history (build : W → C → R) (tensorAt : T → C) :
    RelaxationCache W C R → List (RelaxationEvent W T) → List (Option R)
  | _, [] => []
  | d, .request t :: es =>
    (d.request build tensorAt t).1 :: history build tensorAt (d.request build tensorAt t).2 es
  | d, .reassemble w :: es => history build tensorAt (d.reinitialize w) es

/-- What a history ought to reply. -/
def RelaxationCache.expected (build : W → C → R) (tensorAt : T → C) :
    W → List (RelaxationEvent W T) → List (Option R)
  | _, [] => []
  | w, .request t :: es => some (build w (tensorAt t)) :: expected build tensorAt w es
  | _, .reassemble w :: es => expected build tensorAt w es

/-- No reassembly takes place after the first request. -/
def NoLateReassembly : List (RelaxationEvent W T) → Prop
  | [] => True
  | .reassemble _ :: es => NoLateReassembly es
  | .request _ :: es => ∀ e ∈ es, ∃ t, e = .request t

/-- C33, part: in every history that does not reassemble the stiffness after the first request, every
request is answered with the operator of its time. Missing: later reassemblies, see
`C33_reassembly_wrong`. -/
theorem C33_requests_partial (build : W → C → R) (tensorAt : T → C) (w : W)
    (es : List (RelaxationEvent W T)) (h : NoLateReassembly es) :
    history build tensorAt { wMatrix := w } es = expected build tensorAt w es := by
  have key : ∀ (es : List (RelaxationEvent W T)), (∀ e ∈ es, ∃ t, e = .request t) →
      ∀ d : RelaxationCache W C R, (∀ c, d.tensor = some c → d.relaxation = some (build d.wMatrix c)) →
      history build tensorAt d es = expected build tensorAt d.wMatrix es := by
    intro es
    induction es with
    | nil => intro _ d _; rfl
    | cons e es ih =>
      intro he d hd
      obtain ⟨t, rfl⟩ := he e (by simp)
      have hr : d.request build tensorAt t = (some (build d.wMatrix (tensorAt t)),
          { d with tensor := some (tensorAt t), relaxation := some (build d.wMatrix (tensorAt t)) }) := by
        unfold request
        by_cases h : some (tensorAt t) = d.tensor
        · have := hd _ h.symm
          cases d
          simp only at h this ⊢
          subst h
          simp [this]
        · simp [h]
      rw [history, expected, hr]
      congr 1
      refine ih (fun e h => he e (by simp [h])) _ ?_
      rintro c ⟨⟩
      rfl
  induction es generalizing w with
  | nil => rfl
  | cons e es ih =>
    cases e with
    | request t => exact key (.request t :: es) (by intro e he; rcases List.mem_cons.1 he with rfl | he; exacts [⟨t, rfl⟩, h e he]) _ (by simp)
    | reassemble w' => exact ih w' h

/-- C33, part: whatever happened before, a request at a time whose tensor differs from the last one
used is answered with the current stiffness. -/
theorem C33_new_tensor_partial (build : W → C → R) (tensorAt : T → C) (d : RelaxationCache W C R)
    (time : T) (h : d.tensor ≠ some (tensorAt time)) :
    (d.request build tensorAt time).1 = some (build d.wMatrix (tensorAt time)) := by
  simp [request, Ne.symm h]

/-- C33 fails: after reassembly a request at the same time (or at any time with the same tensor) still
returns the operator of the old stiffness. -/
theorem C33_reassembly_wrong (build : W → C → R) (tensorAt : T → C) (w w' : W) (t t' : T)
    (h : tensorAt t = tensorAt t') :
    history build tensorAt { wMatrix := w } [.request t, .reassemble w', .request t'] =
      [some (build w (tensorAt t)), some (build w (tensorAt t'))] := by
  simp [history, request, reinitialize, h]

end

example : NoLateReassembly (W := ℕ) (T := ℕ) [.reassemble 3, .request 0, .request 1, .request 0] := by
  simp [NoLateReassembly]
example : RelaxationCache.history (W := ℕ) (fun w c => w * c) (fun t : ℕ => t / 2) { wMatrix := 5 }
    [.reassemble 3, .request 2, .request 3, .request 4] = [some 3, some 3, some 6] := by decide
example : ∀ f ∈ [[0, 1], [1, 2]], f.length = 2 ∧ f.Nodup ∧ ∀ p ∈ f, p < 3 := by decide
/-- The length of a segment with a rational length, with a function that is right there. -/
example : surfacePerBoundaryNode (K := ℚ) (fun x => if x = 25 then 5 else 0) 2 [[0, 1]]
    (fun p k => ([[0, 0], [3, 4]].getD p []).getD k 0) ≠ none := by
  obtain ⟨s, hs, -⟩ := C31_weights (K := ℚ) (fun x => if x = 25 then 5 else 0) 2 (by simp) (by norm_num)
    (fun p k => ([[0, 0], [3, 4]].getD p []).getD k 0) 2 [[0, 1]] (by decide)
  rw [hs]; simp
example : ({ source := some fun (x : ℕ) t => x + t, timestamp := some 1 } : FieldSource ℕ ℕ ℕ).timestamp ≠
    some 2 := by decide

end Conmech
