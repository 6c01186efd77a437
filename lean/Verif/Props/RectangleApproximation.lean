import Verif.Props.ElasticApproximation
import Verif.Props.HeldRectangles
import Verif.Props.RectangleIntegrals
/-!
C109 and C110 on generated rectangles.
-/
namespace Conmech
open Spec MeasureTheory

/-- The outer unit normal of a side of the rectangle. -/
def Spec.Side.normal : Side → ℝ × ℝ
  | .bottom => (0, -1)
  | .right => (1, 0)
  | .top => (0, 1)
  | .left => (-1, 0)

/-- The flow `s` on the rectangle: it loses `c` per area, and through the sides that are not held, `q` per
length leaves where they are loaded and nothing elsewhere. -/
structure Spec.RectangleFlow (width height : ℝ) (held loaded : Side → Bool) (s : ℕ → ℝ × ℝ → ℝ) (c q : ℝ) :
    Prop where
  smooth : ∀ k < 2, ContDiff ℝ 1 (s k)
  inside : ∀ p ∈ rectangle width height, -(partialDeriv (s 0) 0 p + partialDeriv (s 1) 1 p) = c
  sides : ∀ σ : Side, held σ = false → ∀ t, 0 ≤ t → t ≤ σ.length width height →
    s 0 (σ.at width height t) * σ.normal.1 + s 1 (σ.at width height t) * σ.normal.2 =
      if loaded σ then q else 0

section
variable {sx sy : ℕ} {ex ey : ℝ} {nodes : List (ℝ × ℝ)} {elements : List (List ℕ)} {ρ : ℕ × ℕ → ℕ}

/-- The size of the triangles of the grid. -/
theorem GridMesh.size (m : GridMesh sx sy ex ey nodes elements ρ) (hex : 0 < ex) (hey : 0 < ey) {e : List ℕ}
    (he : e ∈ elements) : |det2 (vertices (coordinates nodes) e)| = ex * ey / 2 ∧
      ∀ i < 3, ∀ j < 3, |vertices (coordinates nodes) e i 0 - vertices (coordinates nodes) e j 0| ≤ ex ∧
        |vertices (coordinates nodes) e i 1 - vertices (coordinates nodes) e j 1| ≤ ey := by
  obtain ⟨t, ht, rfl⟩ := List.getElem_of_mem he
  obtain ⟨hT, hrow⟩ := m.row ht
  rw [List.getD_eq_getElem _ _ ht] at hrow
  generalize (triangleNumbers sx sy).getD t ((0, 0), 0) = x at hT hrow
  generalize elements[t] = e at *
  obtain ⟨⟨i', j'⟩, n⟩ := x
  obtain ⟨-, -, hn⟩ := (mem_triangleNumbers _).1 hT
  constructor
  · have h1 := (integralOn_perm (coordinates nodes) hrow 1 fun _ => 0).trans (m.corners hT 1 fun _ => 0)
    have h2 : |det2 (vertices (coordinates nodes) e)| = |det2 (gridCorners ex ey ((i', j'), n))| := by
      simp only [integralOn, area, affineAt, zero_mul, add_zero] at h1
      linarith
    have hpos : 0 < ex * ey := mul_pos hex hey
    rw [h2]
    simp only at hn
    have key : ∀ z : ℝ, z = ex * ey / 2 → |z| = ex * ey / 2 := fun z hz => by
      rw [hz, abs_of_pos (by positivity)]
    interval_cases n <;> refine key _ ?_ <;>
      simp [det2, gridCorners, halfRow, halfPoint] <;> ring
  · have hb : ∀ v ∈ e, (i' * ex ≤ coordinates nodes v 0 ∧ coordinates nodes v 0 ≤ (i' + 1) * ex) ∧
        (j' * ey ≤ coordinates nodes v 1 ∧ coordinates nodes v 1 ≤ (j' + 1) * ey) := by
      intro v hv
      obtain ⟨g1, g2, g3⟩ := halfRow_onGrid hT
      have hv := hrow.mem_iff.1 hv
      simp only at hn hv g1 g2 g3
      have box : ∀ g : ℕ × ℕ, OnGrid sx sy g → 2 * i' ≤ g.1 ∧ g.1 ≤ 2 * i' + 2 ∧ 2 * j' ≤ g.2 ∧ g.2 ≤ 2 * j' + 2 →
          (i' * ex ≤ coordinates nodes (ρ g) 0 ∧ coordinates nodes (ρ g) 0 ≤ (i' + 1) * ex) ∧
          (j' * ey ≤ coordinates nodes (ρ g) 1 ∧ coordinates nodes (ρ g) 1 ≤ (j' + 1) * ey) := by
        rintro g hg ⟨b1, b2, b3, b4⟩
        rw [m.coordinates_at hg]
        have b1 : 2 * (i' : ℝ) ≤ g.1 := by exact_mod_cast b1
        have b2 : (g.1 : ℝ) ≤ 2 * i' + 2 := by exact_mod_cast b2
        have b3 : 2 * (j' : ℝ) ≤ g.2 := by exact_mod_cast b3
        have b4 : (g.2 : ℝ) ≤ 2 * j' + 2 := by exact_mod_cast b4
        simp only [halfPoint, if_true, one_ne_zero, if_false]
        refine ⟨⟨?_, ?_⟩, ?_, ?_⟩ <;> refine mul_le_mul_of_nonneg_right ?_ (by positivity) <;> linarith
      simp only [List.mem_cons, List.not_mem_nil, or_false] at hv
      rcases hv with rfl | rfl | rfl
      · refine box _ g1 ?_
        interval_cases n <;> simp [halfRow] <;> omega
      · refine box _ g2 ?_
        interval_cases n <;> simp [halfRow] <;> omega
      · refine box _ g3 ?_
        interval_cases n <;> simp [halfRow]
    intro i hi j hj
    have hl : e.length = 3 := hrow.length_eq
    have hmem : ∀ i < 3, e.getD i 0 ∈ e := fun i hi => by
      rw [List.getD_eq_getElem _ _ (by omega)]
      exact List.getElem_mem _
    obtain ⟨⟨a1, a2⟩, a3, a4⟩ := hb _ (hmem i hi)
    obtain ⟨⟨b1, b2⟩, b3, b4⟩ := hb _ (hmem j hj)
    simp only [vertices]
    exact ⟨abs_le.2 ⟨by linarith, by linarith⟩, abs_le.2 ⟨by linarith, by linarith⟩⟩

/-- The size of the parts of a side that is divided into parts of about the given size. -/
theorem cell_size {p w : ℝ} (hp : 0 < p) (hw : p ≤ w) : p / 2 ≤ w / ⌈w / p⌉₊ ∧ w / ⌈w / p⌉₊ ≤ p := by
  have hw0 : 0 < w := hp.trans_le hw
  have h1 : (0 : ℝ) < ⌈w / p⌉₊ := by
    have := Nat.ceil_pos.2 (div_pos hw0 hp)
    exact_mod_cast this
  have h2 := Nat.le_ceil (w / p)
  have h3 := Nat.ceil_lt_add_one (div_pos hw0 hp).le
  rw [div_le_iff₀ hp] at h2
  have h4 : (⌈w / p⌉₊ : ℝ) * p < w + p := by
    have := mul_lt_mul_of_pos_right h3 hp
    rwa [add_mul, div_mul_cancel₀ _ hp.ne', one_mul] at this
  constructor
  · rw [le_div_iff₀ h1]
    nlinarith
  · rw [div_le_iff₀ h1]
    linarith

variable {width height : ℝ} {isContact isDirichlet : ℝ × ℝ → Bool} {m : MeshBoundaries (ℝ × ℝ)}

/-- The list of the boundary surfaces is a list of all boundary faces, without repetitions. -/
structure ListsBoundary (m : MeshBoundaries (ℝ × ℝ)) : Prop where
  all : ∀ f, f ∈ m.boundarySurfaces ↔ f.Pairwise (· ≤ ·) ∧ BoundaryFace m.elements (f : Multiset ℕ)
  once : m.boundarySurfaces.Nodup

theorem Generated.loadsBoundary (h : Generated sx sy width height isContact isDirichlet m ρ)
    (hb : ListsBoundary m) : LoadsBoundary (supportedOf m) := by
  have hsub : ∀ f ∈ m.neumannSurfaces, f ∈ m.boundarySurfaces := by
    rw [h.neumann]
    exact fun f hf => (List.mem_filter.1 hf).1
  refine ⟨fun f hf => ((hb.all f).1 (hsub f hf)).2, ?_⟩
  have hN : m.neumannSurfaces.Nodup := by
    rw [h.neumann]
    exact hb.once.filter _
  refine List.Nodup.map_on (fun f hf g hg he => ?_) hN
  exact List.Perm.eq_of_pairwise (fun a b _ _ => Nat.le_antisymm) ((hb.all f).1 (hsub f hf)).1
    ((hb.all g).1 (hsub g hg)).1 (Multiset.coe_eq_coe.1 he)

/-- The outer normal of a triangle in the rectangle with two corners on the same side. -/
theorem normal_of_side {X : ℕ → ℕ → ℝ} {j : ℕ} {n : ℕ → ℝ} (hn : OuterNormal X j n) {σ : Side} {t₁ t₂ : ℝ}
    (h1 : (X ((j + 1) % 3) 0, X ((j + 1) % 3) 1) = σ.at width height t₁)
    (h2 : (X ((j + 2) % 3) 0, X ((j + 2) % 3) 1) = σ.at width height t₂) (ht : t₁ ≠ t₂)
    (hj : 0 ≤ X j 0 ∧ X j 0 ≤ width ∧ 0 ≤ X j 1 ∧ X j 1 ≤ height) : n 0 = σ.normal.1 ∧ n 1 = σ.normal.2 := by
  obtain ⟨u, a, o⟩ := hn
  obtain ⟨j1, j2, j3, j4⟩ := hj
  have ht' : t₂ - t₁ ≠ 0 := sub_ne_zero.2 ht.symm
  cases σ <;> simp only [Side.at, Prod.mk.injEq] at h1 h2 <;> obtain ⟨e1, e2⟩ := h1 <;> obtain ⟨e3, e4⟩ := h2 <;>
    rw [e1, e2] at o a <;> rw [e3, e4] at a <;>
    simp only [sub_self, mul_zero, add_zero, zero_add, mul_eq_zero, ht', or_false, sub_zero] at a <;>
    rw [a] at u o <;> simp only [Side.normal] <;> refine ⟨?_, ?_⟩ <;> first | exact a | skip
  · nlinarith
  · nlinarith
  · nlinarith
  · nlinarith

open Classical in
/-- A flow on the rectangle is one on the mesh. -/
theorem Generated.flow (h : Generated sx sy width height isContact isDirichlet m ρ) (hw : 0 < width)
    (hh : 0 < height) (hb : ListsBoundary m) (hin : ∀ e ∈ m.elements, ∀ i < 3,
      0 ≤ vertices (coordinates m.nodes) e i 0 ∧ vertices (coordinates m.nodes) e i 0 ≤ width ∧
      0 ≤ vertices (coordinates m.nodes) e i 1 ∧ vertices (coordinates m.nodes) e i 1 ≤ height)
    {contact held : Side → Bool} (hc : ChoosesSides width height isContact contact)
    (hd : HoldsSides width height isDirichlet held) {s : ℕ → ℝ × ℝ → ℝ} {c q : ℝ}
    (hs : RectangleFlow width height held (fun σ => !contact σ && !held σ) s c q) :
    Flow (supportedOf m) s c q := by
  refine ⟨hs.smooth, fun p hp => hs.inside p (body_subset hin hp), fun e he j hj hbf => ?_⟩
  have he : e ∈ m.elements := he
  have hl : e.length = 3 := (h.valid e he).1
  -- the side as a list of two nodes
  have hpair : (e.eraseIdx j).Perm [e.getD ((j + 1) % 3) 0, e.getD ((j + 2) % 3) 0] := by
    obtain ⟨a, b, d, rfl⟩ := List.length_eq_three.1 hl
    interval_cases j
    · exact List.Perm.refl _
    · exact List.Perm.swap _ _ _
    · exact List.Perm.refl _
  -- the listed boundary surface
  obtain ⟨f, hf, hfe⟩ : ∃ f ∈ m.boundarySurfaces, (f : Multiset ℕ) = (e.eraseIdx j : List ℕ) := by
    refine ⟨(e.eraseIdx j).mergeSort, (hb.all _).2 ⟨?_, ?_⟩, Multiset.coe_eq_coe.2 (List.mergeSort_perm _ _)⟩
    · have := List.pairwise_mergeSort (le := fun a b : ℕ => decide (a ≤ b))
        (fun a b c => by simpa using Nat.le_trans) (fun a b => by simpa using Nat.le_total a b) (e.eraseIdx j)
      simpa using this
    · rw [Multiset.coe_eq_coe.2 (List.mergeSort_perm _ _)]
      exact hbf
  obtain ⟨σ, n, hn, hends⟩ := h.divides.pair hf
  obtain ⟨hpart, hparts⟩ := σ.part_pos h.sx_pos h.sy_pos hw hh
  have hendsOf : ∀ f' : List ℕ, (f' : Multiset ℕ) = (e.eraseIdx j : List ℕ) → endsOf m.nodes f' =
      {σ.at width height (n * σ.part sx sy width height), σ.at width height ((n + 1) * σ.part sx sy width height)} := by
    intro f' hf'
    rw [← hends]
    unfold endsOf
    exact Multiset.coe_eq_coe.2 ((Multiset.coe_eq_coe.1 (hf'.trans hfe.symm)).filterMap _)
  have hn' : (n : ℝ) + 1 ≤ σ.parts sx sy := by exact_mod_cast hn
  have hmax : ((n : ℝ) + 1) * σ.part sx sy width height ≤ σ.length width height := by
    rw [← hparts]
    exact mul_le_mul_of_nonneg_right hn' hpart.le
  have hmin : 0 ≤ (n : ℝ) * σ.part sx sy width height := by positivity
  -- the corners lie on the side
  obtain ⟨t₁, t₂, b1, b2, b3, b4, hne, c1, c2⟩ : ∃ t₁ t₂ : ℝ, 0 ≤ t₁ ∧ t₁ ≤ σ.length width height ∧ 0 ≤ t₂ ∧
      t₂ ≤ σ.length width height ∧ t₁ ≠ t₂ ∧ m.nodes[e.getD ((j + 1) % 3) 0]? = some (σ.at width height t₁) ∧
      m.nodes[e.getD ((j + 2) % 3) 0]? = some (σ.at width height t₂) := by
    obtain ⟨a, b, hab, hcase⟩ := ends_pair (by rfl) (hendsOf _ (Multiset.coe_eq_coe.2 hpair.symm))
    simp only [List.cons.injEq, and_true] at hab
    obtain ⟨rfl, rfl⟩ := hab
    rcases hcase with ⟨c1, c2⟩ | ⟨c1, c2⟩
    · exact ⟨_, _, hmin, by linarith, by linarith, hmax, by intro h; linarith, c1, c2⟩
    · exact ⟨_, _, by linarith, hmax, hmin, by linarith, by intro h; linarith, c1, c2⟩
  have hlt : ∀ {v : ℕ} {p : ℝ × ℝ}, m.nodes[v]? = some p → v < m.nodes.length := fun h =>
    (List.getElem?_eq_some_iff.1 h).1
  by_cases hheld : held σ = true
  · left
    intro v hv
    have hv := hpair.mem_iff.1 hv
    simp only [List.mem_cons, List.not_mem_nil, or_false] at hv
    rcases hv with rfl | rfl
    · exact (h.supported hw hh hd (hlt c1)).2 ⟨σ, hheld, _, c1, t₁, b1, b2, rfl⟩
    · exact (h.supported hw hh hd (hlt c2)).2 ⟨σ, hheld, _, c2, t₂, b3, b4, rfl⟩
  right
  have hheld : held σ = false := by simpa using hheld
  intro ν hν r r0 r1 p hp
  have x1 : (vertices (coordinates m.nodes) e ((j + 1) % 3) 0, vertices (coordinates m.nodes) e ((j + 1) % 3) 1) =
      σ.at width height t₁ := by
    simp [vertices, coordinates, List.getD_eq_getElem?_getD, c1] at c1 ⊢
    simp [c1]
  have x2 : (vertices (coordinates m.nodes) e ((j + 2) % 3) 0, vertices (coordinates m.nodes) e ((j + 2) % 3) 1) =
      σ.at width height t₂ := by
    simp [vertices, coordinates, List.getD_eq_getElem?_getD, c2] at c2 ⊢
    simp [c2]
  obtain ⟨n1, n2⟩ := normal_of_side hν x1 x2 hne (hin e he j hj)
  have hp' : p = σ.at width height ((1 - r) * t₁ + r * t₂) := by
    rw [hp]
    show ((1 - r) * vertices (coordinates m.nodes) e ((j + 1) % 3) 0 +
      r * vertices (coordinates m.nodes) e ((j + 2) % 3) 0, (1 - r) * vertices (coordinates m.nodes) e ((j + 1) % 3) 1 +
      r * vertices (coordinates m.nodes) e ((j + 2) % 3) 1) = _
    cases σ <;> simp only [Side.at, Prod.mk.injEq] at x1 x2 ⊢ <;> rw [x1.1, x1.2, x2.1, x2.2] <;>
      constructor <;> ring
  have hr : 0 ≤ (1 - r) * t₁ + r * t₂ := by nlinarith
  have hr' : (1 - r) * t₁ + r * t₂ ≤ σ.length width height := by nlinarith
  rw [n1, n2, hp', hs.sides σ hheld _ hr hr']
  -- which sides are loaded
  have hload : ∀ f' : List ℕ, f' ∈ m.boundarySurfaces → (f' : Multiset ℕ) = (e.eraseIdx j : List ℕ) →
      (f' ∈ m.neumannSurfaces ↔ (!contact σ && !held σ) = true) := by
    intro f' hf' hfe'
    have hcen := (surface_of_ends (h.divides.two f' hf') (hendsOf f' hfe') Real.sqrt).1
    have hmid := (side_middle σ (sx := sx) (sy := sy) (width := width) (height := height) n hpart.le
      (sqrt := Real.sqrt) fun x hx => ⟨Real.sqrt_nonneg x, Real.mul_self_sqrt hx⟩).1
    rw [h.neumann, applyPredicateToSurfaces, List.mem_filter, hcen, hmid, and_iff_right hf']
    have hN := hc.neither (hd.chooses hw hh) σ ((n + 1 / 2) * σ.part sx sy width height) (by positivity)
      (by linarith)
    beta_reduce at hN
    rw [hN]
  by_cases hL : (!contact σ && !held σ) = true
  · rw [if_pos hL, if_pos]
    exact ⟨f, (hload f hf hfe).2 hL, hfe⟩
  · rw [if_neg hL, if_neg]
    rintro ⟨f', hf', hfe'⟩
    have hf'' : f' ∈ m.neumannSurfaces := hf'
    have hmem := hf''
    rw [h.neumann] at hmem
    exact hL ((hload f' (List.mem_filter.1 hmem).1 hfe').1 hf'')

variable [Inhabited (ℝ × ℝ)]

/-- What is needed of a generated mesh. -/
theorem generated_facts {perimeter : ℝ} (hp : 0 < perimeter) (hw : perimeter ≤ width) (hh : perimeter ≤ height)
    (htol : 1 / 10000 ≤ perimeter / 2) {nodes : List (ℝ × ℝ)} {elements : List (ℕ × ℕ × ℕ)}
    (hm : crossMesh perimeter width height = some (nodes, elements)) {contact held : Side → Bool}
    (hc : ChoosesSides width height isContact contact) (hd : HoldsSides width height isDirichlet held) :
    let m := supportedOf (identifyBoundaries centre nodes (elementRows elements) isContact isDirichlet)
    m.Good ∧ NonOverlapping 2 m.elements m.nodes ∧ LoadsBoundary m ∧
    body m.nodes m.elements ⊆ rectangle width height ∧
    (∀ f : ℝ × ℝ → ℝ, ∫ p in body m.nodes m.elements, f p = ∫ p in rectangle width height, f p) ∧
    (MeasureTheory.volume (body m.nodes m.elements)).toReal = width * height ∧
    (∀ (s : ℕ → ℝ × ℝ → ℝ) (c q : ℝ),
      RectangleFlow width height held (fun σ => !contact σ && !held σ) s c q → Flow m s c q) ∧
    ∀ e ∈ m.elements, 1 / 8 * perimeter ^ 2 ≤ |det2 (vertices m.nodes e)| ∧
      ∀ i < 3, ∀ j < 3, ∀ k < 2, |vertices m.nodes e i k - vertices m.nodes e j k| ≤ perimeter := by
  have w0 : 0 < width := hp.trans_le hw
  have h0 : 0 < height := hp.trans_le hh
  have hw' : 1 / 10000 ≤ width := by linarith
  have hh' : 1 / 10000 ≤ height := by linarith
  obtain ⟨ρ, h⟩ := generated hp w0 h0 htol hw' hh' hm isContact isDirichlet
  have hval := valid_crossMesh hp w0 h0 htol hw' hh' hm
  have hb : ListsBoundary (identifyBoundaries centre nodes (elementRows elements) isContact isDirichlet) :=
    ⟨fun f => (C08_classification_total centre nodes (elementRows elements) isContact isDirichlet 3
      (fun row h v hv => (hval row h).2 v hv) (fun row h => (hval row h).1) f).1,
      nodup_boundarySurfaces centre nodes (elementRows elements) isContact isDirichlet⟩
  have hin := nodes_in_rectangle hp w0 h0 htol hw' hh' hm isContact isDirichlet
  obtain ⟨hae, hint⟩ := C108_rectangle_partial hp w0 h0 htol hw' hh' hm isContact isDirichlet
  obtain ⟨⟨-, -, ho⟩, -⟩ := C86_generated hp w0 h0 htol hw' hh' hm centre isContact isDirichlet
  refine ⟨h.good w0 h0, ho, h.loadsBoundary hb, body_subset hin, hint, ?_, fun s c q hs =>
    h.flow w0 h0 hb hin hc hd hs, fun e he => ?_⟩
  · refine (congrArg ENNReal.toReal (measure_congr hae)).trans ?_
    rw [volume_rectangle w0.le, ENNReal.toReal_ofReal (by positivity)]
  · obtain ⟨x1, x2⟩ := cell_size hp hw
    obtain ⟨y1, y2⟩ := cell_size hp hh
    obtain ⟨d, b⟩ := h.grid.size (by linarith) (by linarith) he
    refine ⟨?_, fun i hi j hj k hk => ?_⟩
    · refine le_of_le_of_eq ?_ d.symm
      nlinarith
    · interval_cases k
      · exact (b i hi j hj).1.trans x2
      · exact (b i hi j hj).2.trans y2

/-- C109 on a generated rectangle: let `u` be a temperature with bounded second derivatives that solves
the boundary value problem on the rectangle. Then the mean square error of the gradient of the computed
temperature is at most proportional to the size of the elements.

Missing: the mesh is at least as fine as the rectangle is wide and high, and the perimeter is not
smaller than twice the tolerance 1e-4 of the mesh generator (`htol`, see C52). -/
theorem C109_rectangle_partial {perimeter : ℝ} (hp : 0 < perimeter) (hw : perimeter ≤ width)
    (hh : perimeter ≤ height) (htol : 1 / 10000 ≤ perimeter / 2) {nodes : List (ℝ × ℝ)}
    {elements : List (ℕ × ℕ × ℕ)} (hm : crossMesh perimeter width height = some (nodes, elements))
    {contact held : Side → Bool} (hc : ChoosesSides width height isContact contact)
    (hd : HoldsSides width height isDirichlet held) {sqrt : ℝ → ℝ} (hs : IsSqrt sqrt) (k c q : ℝ)
    {u : ℝ × ℝ → ℝ} (hu : ContDiff ℝ 2 u)
    (hflow : RectangleFlow width height held (fun σ => !contact σ && !held σ)
      (fun i p => k ^ 2 * partialDeriv u i p) c q)
    {M : ℝ} (hM : ∀ k < 2, ∀ l < 2, ∀ p ∈ rectangle width height, |partialDeriv (partialDeriv u k) l p| ≤ M)
    {g f T : ℕ → ℝ} {Th : ℝ × ℝ → ℝ} :
    let m := supportedOf (identifyBoundaries centre nodes (elementRows elements) isContact isDirichlet)
    PoissonWith sqrt m k c q g f T →
    (∀ p < m.count, m.supported p → g p = u (m.nodes p 0, m.nodes p 1)) →
    Interpolates m.nodes m.elements T Th →
    ∫ p in rectangle width height, k ^ 2 * ((partialDeriv u 0 p - partialDeriv Th 0 p) ^ 2 +
        (partialDeriv u 1 p - partialDeriv Th 1 p) ^ 2) ≤
      8192 * k ^ 2 * M ^ 2 * perimeter ^ 2 * (width * height) := by
  intro m hT hg hTh
  obtain ⟨hgood, ho, hb, hsub, hint, hvol, hfl, hsize⟩ := generated_facts hp hw hh htol hm hc hd
  have := C109_estimate hgood ho hb hs k c q hu (hfl _ c q hflow) hT hg hTh
    (fun k hk l hl p hp => hM k hk l hl p (hsub hp)) (fun e he => (hsize e he).2) (κ := 1 / 8) (by norm_num)
    fun e he => (hsize e he).1
  rw [hint, hvol] at this
  refine this.trans (le_of_eq ?_)
  ring

/-- C110 on a generated rectangle: let `w` be a displacement with bounded second derivatives that solves
the equations of elasticity on the rectangle. Then the energy of the error of the computed displacement
is at most proportional to the square of the size of the elements.

Missing: as in `C109_rectangle_partial`. -/
theorem C110_rectangle_partial {perimeter : ℝ} (hp : 0 < perimeter) (hw : perimeter ≤ width)
    (hh : perimeter ≤ height) (htol : 1 / 10000 ≤ perimeter / 2) {nodes : List (ℝ × ℝ)}
    {elements : List (ℕ × ℕ × ℕ)} (hm : crossMesh perimeter width height = some (nodes, elements))
    {contact held : Side → Bool} (hc : ChoosesSides width height isContact contact)
    (hd : HoldsSides width height isDirichlet held) {sqrt : ℝ → ℝ} (hs : IsSqrt sqrt) {mu lam : ℝ}
    (hmu : 0 ≤ mu) (hlam : 0 ≤ lam) (c q : ℕ → ℝ) {w : ℕ → ℝ × ℝ → ℝ} (hC : ∀ a < 2, ContDiff ℝ 2 (w a))
    (hflow : ∀ a < 2, RectangleFlow width height held (fun σ => !contact σ && !held σ)
      (stressOf mu lam w a) (c a) (q a))
    {M : ℝ} (hM : ∀ a < 2, ∀ k < 2, ∀ l < 2, ∀ p ∈ rectangle width height,
      |partialDeriv (partialDeriv (w a) k) l p| ≤ M) {g f u : ℕ → ℝ} {uh : ℕ → ℝ × ℝ → ℝ} :
    let m := supportedOf (identifyBoundaries centre nodes (elementRows elements) isContact isDirichlet)
    StaticWith sqrt m mu lam c q g f u →
    (∀ a < 2, ∀ p < m.count, m.supported p → g (a * m.count + p) = w a (m.nodes p 0, m.nodes p 1)) →
    (∀ a < 2, Interpolates m.nodes m.elements (component m.count u a) (uh a)) →
    ∫ p in rectangle width height, hooke 2 mu lam (gradientError w uh p) (gradientError w uh p) ≤
      (8 * mu + 4 * lam) * (64 * M * perimeter) ^ 2 * (width * height) := by
  intro m hu hg huh
  obtain ⟨hgood, ho, hb, hsub, hint, hvol, hfl, hsize⟩ := generated_facts hp hw hh htol hm hc hd
  have := C110_estimate hgood ho hb hs hmu hlam c q hC (fun a ha => hfl _ _ _ (hflow a ha)) hu hg huh
    (fun a ha k hk l hl p hp => hM a ha k hk l hl p (hsub hp)) (fun e he => (hsize e he).2) (κ := 1 / 8)
    (by norm_num) fun e he => (hsize e he).1
  rw [hint, hvol] at this
  refine this.trans (le_of_eq ?_)
  ring

end

/-! ### an example -/

/-- The field of the example. -/
noncomputable def barField (p : ℝ × ℝ) : ℝ := 3 * p.1 - p.1 ^ 2 / 2

theorem barField_smooth : ContDiff ℝ 2 barField := by unfold barField; fun_prop

theorem deriv_bar (x : ℝ) : deriv (fun s : ℝ => 3 * s - s ^ 2 / 2) x = 3 - x := by
  have h1 : HasDerivAt (fun s : ℝ => 3 * s - s ^ 2 / 2) (3 * 1 - (2 * x) / 2) x := by
    have h2 := hasDerivAt_pow 2 x
    simp only [Nat.cast_ofNat, Nat.add_one_sub_one, pow_one] at h2
    exact ((hasDerivAt_id x).const_mul 3).sub (h2.div_const 2)
  rw [h1.deriv]
  ring

theorem bar_partial (k : ℕ) : partialDeriv barField k = fun p => if k = 0 then 3 - p.1 else 0 := by
  funext p
  cases k with
  | zero => simpa [partialDeriv, barField] using deriv_bar p.1
  | succ k => simp [partialDeriv, barField]

theorem partial_affine (a b : ℝ) (k : ℕ) :
    partialDeriv (fun p => a - b * p.1) k = fun _ => if k = 0 then -b else 0 := by
  funext p
  cases k with
  | zero =>
    have : HasDerivAt (fun s : ℝ => a - b * s) (-(b * 1)) p.1 := ((hasDerivAt_id p.1).const_mul b).const_sub a
    simpa [partialDeriv] using this.deriv
  | succ k => simp [partialDeriv]

theorem partial_const (a : ℝ) (k : ℕ) : partialDeriv (fun _ => a) k = fun _ => 0 := by
  funext p
  cases k <;> simp [partialDeriv]

theorem bar_second (k l : ℕ) (p : ℝ × ℝ) : |partialDeriv (partialDeriv barField k) l p| ≤ 1 := by
  rw [bar_partial]
  by_cases hk : k = 0
  · have := partial_affine 3 1 l
    simp only [one_mul] at this
    simp only [hk, if_true, this]
    split_ifs <;> simp
  · simp only [hk, if_false, partial_const]
    simp

/-- The lower and the upper side. -/
theorem chooses_both {width height : ℝ} (hw : 0 < width) (hh : 0 < height) :
    ChoosesSides width height (fun p => decide (p.2 = 0 ∨ p.2 = height))
      fun s => decide (s = .bottom ∨ s = .top) := by
  intro s t h1 h2
  cases s <;> simp only [Side.length] at h2 <;> simp [Side.at, h1.ne', hh.ne', h2.ne]

theorem Generated.left_node {sx sy : ℕ} {ρ : ℕ × ℕ → ℕ} {width height : ℝ} {isContact : ℝ × ℝ → Bool}
    {m : MeshBoundaries (ℝ × ℝ)}
    (h : Generated sx sy width height isContact (fun p => decide (p.1 = 0)) m ρ) {p : ℕ}
    (hp : p < (supportedOf m).count) (hS : (supportedOf m).supported p) : (supportedOf m).nodes p 0 = 0 := by
  obtain ⟨x, hx⟩ : ∃ x, m.nodes[p]? = some x := ⟨_, List.getElem?_eq_getElem hp⟩
  have := ((h.range p x hx).1 hS).2
  simp only [decide_eq_true_eq] at this
  simp [supportedOf, coordinates, List.getD_eq_getElem?_getD, hx, this]

/-- The flow of the example. -/
theorem bar_flow (a : ℝ) : RectangleFlow 2 1 (fun s => decide (s = .left))
    (fun σ => !decide (σ = .bottom ∨ σ = .top) && !decide (σ = .left))
    (fun i p => a * partialDeriv barField i p) a a := by
  have e : ∀ i, (fun p => a * partialDeriv barField i p) =
      fun p : ℝ × ℝ => (if i = 0 then 3 * a else 0) - (if i = 0 then a else 0) * p.1 := by
    intro i
    rw [bar_partial]
    funext p
    split_ifs <;> ring
  refine ⟨fun k _ => ?_, fun p _ => ?_, fun σ hσ t h1 h2 => ?_⟩
  · simp only [e]
    fun_prop
  · simp only [e, partial_affine]
    simp
  · cases σ <;> simp [Side.at, Side.normal, bar_partial] at hσ ⊢
    ring

/-- All hypotheses of the theorems: the rectangle of width 2 and height 1, held on the left, isolated below
and above, heated inside and on the right, on meshes of all admitted sizes. -/
example (perimeter : ℝ) (h0 : 1 / 5000 ≤ perimeter) (h1 : perimeter ≤ 1) :
    ∃ nodes elements, crossMesh perimeter 2 1 = some (nodes, elements) ∧
    (let m := supportedOf (identifyBoundaries centre nodes (elementRows elements)
      (fun p => decide (p.2 = 0 ∨ p.2 = 1)) fun p => decide (p.1 = 0))
    ∃ f T Th, PoissonWith Real.sqrt m 1 1 1 (fun _ => 0) f T ∧ Interpolates m.nodes m.elements T Th ∧
      ∫ p in rectangle 2 1, 1 ^ 2 * ((partialDeriv barField 0 p - partialDeriv Th 0 p) ^ 2 +
        (partialDeriv barField 1 p - partialDeriv Th 1 p) ^ 2) ≤
      8192 * 1 ^ 2 * 1 ^ 2 * perimeter ^ 2 * (2 * 1)) := by
  have hp : 0 < perimeter := by linarith
  obtain ⟨n, e, -, h, -⟩ := C52_mesh_partial (K := ℝ) (perimeter := perimeter) (width := 2)
    (height := 1) hp (by norm_num) (by norm_num) (by linarith) (by norm_num) (by norm_num)
  refine ⟨n, e, h, ?_⟩
  have hc := chooses_both (width := 2) (height := 1) two_pos one_pos
  have hd := holds_left (K := ℝ) (width := 2) (height := 1) two_pos one_pos
  obtain ⟨f, T, hT⟩ := (C104_solutions_partial hp (by norm_num) (by norm_num) (by linarith)
    (by norm_num) (by norm_num) h (fun p => decide (p.2 = 0 ∨ p.2 = 1)) hd (s := .left) (by simp) Real.sqrt).2
    1 1 1 one_ne_zero
  obtain ⟨hgood, ho, -⟩ := generated_facts hp (by linarith) h1 (by linarith) h hc hd
  obtain ⟨Th, hTh⟩ := C108_interpolant hgood.nondegenerate ho T
  refine ⟨f, T, Th, hT, hTh, C109_rectangle_partial hp (by linarith) h1 (by linarith) h hc hd
    (fun _ hx => ⟨Real.sqrt_nonneg _, Real.mul_self_sqrt hx⟩) 1 1 1 barField_smooth ?_
    (fun k _ l _ p _ => bar_second k l p) hT (fun p hp hS => ?_) hTh⟩
  · rw [one_pow]
    exact bar_flow 1
  · obtain ⟨ρ, hg⟩ := generated (by linarith) two_pos one_pos (by linarith) (by norm_num) (by norm_num) h
      (fun p : ℝ × ℝ => decide (p.2 = 0 ∨ p.2 = 1)) fun p => decide (p.1 = 0)
    have := hg.left_node hp hS
    rw [barField, this]
    norm_num

/-- All hypotheses of the theorems on displacements: the rectangle of width 2 and height 1, held on the
left, free below and above, pulled inside and on the right. -/
example (perimeter : ℝ) (h0 : 1 / 5000 ≤ perimeter) (h1 : perimeter ≤ 1) :
    ∃ nodes elements, crossMesh perimeter 2 1 = some (nodes, elements) ∧
    (let m := supportedOf (identifyBoundaries centre nodes (elementRows elements)
      (fun p => decide (p.2 = 0 ∨ p.2 = 1)) fun p => decide (p.1 = 0))
    let w : ℕ → ℝ × ℝ → ℝ := fun a => if a = 0 then barField else fun _ => 0
    let c : ℕ → ℝ := fun a => if a = 0 then 4 else 0
    ∃ f u uh, StaticWith Real.sqrt m 2 0 c c (fun _ => 0) f u ∧
      (∀ a < 2, Interpolates m.nodes m.elements (component m.count u a) (uh a)) ∧
      ∫ p in rectangle 2 1, hooke 2 2 0 (gradientError w uh p) (gradientError w uh p) ≤
        (8 * 2 + 4 * 0) * (64 * 1 * perimeter) ^ 2 * (2 * 1)) := by
  have hp : 0 < perimeter := by linarith
  obtain ⟨n, e, -, h, -⟩ := C52_mesh_partial (K := ℝ) (perimeter := perimeter) (width := 2)
    (height := 1) hp (by norm_num) (by norm_num) (by linarith) (by norm_num) (by norm_num)
  refine ⟨n, e, h, ?_⟩
  intro m w c
  have hc := chooses_both (width := 2) (height := 1) two_pos one_pos
  have hd := holds_left (K := ℝ) (width := 2) (height := 1) two_pos one_pos
  obtain ⟨f, u, hu⟩ := (C104_solutions_partial hp (by norm_num) (by norm_num) (by linarith)
    (by norm_num) (by norm_num) h (fun p => decide (p.2 = 0 ∨ p.2 = 1)) hd (s := .left) (by simp) Real.sqrt).1
    2 0 c c two_pos le_rfl
  obtain ⟨hgood, ho, -⟩ := generated_facts hp (by linarith) h1 (by linarith) h hc hd
  have hI := fun a => C108_interpolant hgood.nondegenerate ho (component m.count u a)
  choose uh huh using hI
  refine ⟨f, u, uh, hu, fun a _ => huh a, C110_rectangle_partial hp (by linarith) h1 (by linarith) h hc hd
    (fun _ hx => ⟨Real.sqrt_nonneg _, Real.mul_self_sqrt hx⟩) zero_le_two le_rfl c c (fun a ha => ?_) (fun a ha => ?_)
    (fun a ha k _ l _ p _ => ?_) hu (fun a ha p hp hS => ?_) fun a _ => huh a⟩
  · interval_cases a
    · exact barField_smooth
    · exact contDiff_const
  · interval_cases a
    · have : stressOf 2 0 w 0 = fun i p => 4 * partialDeriv barField i p := by
        funext i p
        simp only [stressOf, w, bar_partial, partial_const]
        by_cases hi : i = 0
        · simp [hi, bar_partial]; ring
        · simp [hi, Ne.symm hi, bar_partial, partial_const]
      rw [this]
      exact bar_flow 4
    · have : stressOf 2 0 w 1 = fun i p => 0 * partialDeriv barField i p := by
        funext i p
        simp only [stressOf, w]
        by_cases hi : i = 0
        · simp [hi, bar_partial, partial_const]
        · simp [hi, bar_partial, partial_const]
      rw [this]
      exact bar_flow 0
  · interval_cases a
    · exact bar_second k l p
    · simp [w, partial_const]
  · obtain ⟨ρ, hg⟩ := generated (by linarith) two_pos one_pos (by linarith) (by norm_num) (by norm_num) h
      (fun p : ℝ × ℝ => decide (p.2 = 0 ∨ p.2 = 1)) fun p => decide (p.1 = 0)
    have := hg.left_node hp hS
    interval_cases a
    · show (0 : ℝ) = barField _
      rw [barField, this]
      norm_num
    · simp [w]

end Conmech
