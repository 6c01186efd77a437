import Mathlib.Analysis.Calculus.ContDiff.Basic
import Mathlib.MeasureTheory.Integral.IntervalIntegral.FundThmCalculus
import Verif.Lemmas.Integrals
import Verif.Lemmas.Patch
/-!
Integration by parts on triangles and on bodies made of triangles.
-/
namespace Conmech
open Spec MeasureTheory

theorem partialDeriv_fst {f : ℝ × ℝ → ℝ} {p : ℝ × ℝ} (hf : DifferentiableAt ℝ f p) :
    partialDeriv f 0 p = fderiv ℝ f p (1, 0) := by
  have h : HasDerivAt (fun s : ℝ => (s, p.2)) (1, 0) p.1 := (hasDerivAt_id p.1).prodMk (hasDerivAt_const _ _)
  exact (HasFDerivAt.comp_hasDerivAt p.1 (f := fun s : ℝ => (s, p.2)) (l := f) hf.hasFDerivAt h).deriv

theorem partialDeriv_snd {f : ℝ × ℝ → ℝ} {p : ℝ × ℝ} (hf : DifferentiableAt ℝ f p) :
    partialDeriv f 1 p = fderiv ℝ f p (0, 1) := by
  have h : HasDerivAt (fun s : ℝ => (p.1, s)) (0, 1) p.2 := (hasDerivAt_const _ _).prodMk (hasDerivAt_id p.2)
  exact (HasFDerivAt.comp_hasDerivAt p.2 (f := fun s : ℝ => (p.1, s)) (l := f) hf.hasFDerivAt h).deriv

theorem fderiv_partial {f : ℝ × ℝ → ℝ} {p : ℝ × ℝ} (hf : DifferentiableAt ℝ f p) (a b : ℝ) :
    fderiv ℝ f p (a, b) = a * partialDeriv f 0 p + b * partialDeriv f 1 p := by
  rw [partialDeriv_fst hf, partialDeriv_snd hf,
    show ((a, b) : ℝ × ℝ) = a • ((1, 0) : ℝ × ℝ) + b • ((0, 1) : ℝ × ℝ) by simp, map_add, map_smul, map_smul,
    smul_eq_mul, smul_eq_mul]

theorem contDiff_partialDeriv {f : ℝ × ℝ → ℝ} {n : WithTop ℕ∞} (hf : ContDiff ℝ (n + 1) f) (k : ℕ) :
    ContDiff ℝ n (partialDeriv f k) := by
  have hd : ∀ p, DifferentiableAt ℝ f p := fun p => (hf.differentiable (by simp)).differentiableAt
  have key : ∀ v : ℝ × ℝ, ContDiff ℝ n fun p => fderiv ℝ f p v := fun v =>
    (hf.fderiv_right le_rfl).clm_apply contDiff_const
  match k with
  | 0 =>
    have : partialDeriv f 0 = fun p => fderiv ℝ f p (1, 0) := funext fun p => partialDeriv_fst (hd p)
    rw [this]
    exact key _
  | k + 1 =>
    have : partialDeriv f (k + 1) = fun p => fderiv ℝ f p (0, 1) := funext fun p => partialDeriv_snd (hd p)
    rw [this]
    exact key _

theorem integral_ref_swap (g : ℝ × ℝ → ℝ) : ∫ q in refTriangle, g q.swap = ∫ q in refTriangle, g q := by
  have h := (Measure.measurePreserving_swap (μ := (MeasureTheory.volume : Measure ℝ))
    (ν := (MeasureTheory.volume : Measure ℝ))).setIntegral_preimage_emb
      MeasurableEquiv.prodComm.measurableEmbedding g refTriangle
  have hs : Prod.swap ⁻¹' refTriangle = refTriangle := by
    ext ⟨s, t⟩
    simp only [refTriangle, Set.mem_preimage, Prod.swap_prod_mk, Set.mem_ofPred_eq]
    constructor <;> rintro ⟨h1, h2, h3⟩ <;> exact ⟨h2, h1, by linarith⟩
  rw [hs] at h
  exact h

theorem integral_ref_snd {F : ℝ × ℝ → ℝ} (hF : ContDiff ℝ 1 F) :
    ∫ q in refTriangle, fderiv ℝ F q (0, 1) =
      (∫ s in (0 : ℝ)..1, F (s, 1 - s)) - ∫ s in (0 : ℝ)..1, F (s, 0) := by
  have hc : Continuous fun q => fderiv ℝ F q (0, 1) := (hF.continuous_fderiv (by simp)).clm_apply continuous_const
  have hFc := hF.continuous
  rw [integral_refTriangle hc]
  have inner : ∀ s : ℝ, ∫ t in (0 : ℝ)..(1 - s), fderiv ℝ F (s, t) (0, 1) = F (s, 1 - s) - F (s, 0) := by
    intro s
    refine intervalIntegral.integral_eq_sub_of_hasDerivAt (f := fun t => F (s, t)) (fun t _ => ?_)
      (Continuous.intervalIntegrable (hc.comp (by fun_prop : Continuous fun t : ℝ => (s, t))) _ _)
    have h : HasDerivAt (fun r : ℝ => (s, r)) (0, 1) t := (hasDerivAt_const _ _).prodMk (hasDerivAt_id t)
    exact HasFDerivAt.comp_hasDerivAt t (f := fun r : ℝ => (s, r)) (l := F)
      ((hF.differentiable (by simp)).differentiableAt.hasFDerivAt) h
  simp only [inner]
  refine intervalIntegral.integral_sub ?_ ?_ <;> exact Continuous.intervalIntegrable (by fun_prop) _ _

theorem integral_ref_fst {F : ℝ × ℝ → ℝ} (hF : ContDiff ℝ 1 F) :
    ∫ q in refTriangle, fderiv ℝ F q (1, 0) =
      (∫ s in (0 : ℝ)..1, F (1 - s, s)) - ∫ s in (0 : ℝ)..1, F (0, s) := by
  have hF' : ContDiff ℝ 1 fun q : ℝ × ℝ => F q.swap :=
    hF.comp (contDiff_snd.prodMk contDiff_fst)
  have h := integral_ref_snd hF'
  rw [← integral_ref_swap]
  refine Eq.trans ?_ h
  refine integral_congr_ae (Filter.Eventually.of_forall fun q => ?_)
  have hs : HasFDerivAt (fun q : ℝ × ℝ => q.swap)
      ((ContinuousLinearMap.snd ℝ ℝ ℝ).prod (ContinuousLinearMap.fst ℝ ℝ ℝ)) q :=
    hasFDerivAt_snd.prodMk hasFDerivAt_fst
  have := ((hF.differentiable (by simp)).differentiableAt (x := q.swap)).hasFDerivAt.comp q hs
  show fderiv ℝ F q.swap (1, 0) = fderiv ℝ (fun q : ℝ × ℝ => F q.swap) q (0, 1)
  rw [show (fun q : ℝ × ℝ => F q.swap) = F ∘ fun q => q.swap from rfl, this.fderiv]
  simp

/-- The mean value of a function on the segment between two points. -/
noncomputable def edgeIntegral (f : ℝ × ℝ → ℝ) (a b : ℕ → ℝ) : ℝ :=
  ∫ s in (0 : ℝ)..1, f ((1 - s) * a 0 + s * b 0, (1 - s) * a 1 + s * b 1)

theorem edgeIntegral_symm (f : ℝ × ℝ → ℝ) (a b : ℕ → ℝ) : edgeIntegral f a b = edgeIntegral f b a := by
  unfold edgeIntegral
  have := intervalIntegral.integral_comp_sub_left (a := 0) (b := 1)
    (fun s : ℝ => f ((1 - s) * a 0 + s * b 0, (1 - s) * a 1 + s * b 1)) 1
  rw [sub_self, sub_zero] at this
  rw [← this]
  refine intervalIntegral.integral_congr fun s _ => ?_
  beta_reduce
  congr 2 <;> ring

/-- The gradient of the shape functions of a triangle. -/
theorem gradient_explicit {X : ℕ → ℕ → ℝ} (hX : det2 X ≠ 0) :
    (Plane.gradient X 0 0 = (X 1 1 - X 2 1) / det2 X ∧ Plane.gradient X 0 1 = (X 2 0 - X 1 0) / det2 X) ∧
    (Plane.gradient X 1 0 = (X 2 1 - X 0 1) / det2 X ∧ Plane.gradient X 1 1 = (X 0 0 - X 2 0) / det2 X) ∧
    (Plane.gradient X 2 0 = (X 0 1 - X 1 1) / det2 X ∧ Plane.gradient X 2 1 = (X 1 0 - X 0 0) / det2 X) := by
  have hs := Plane.shape X hX
  have key : ∀ j < 3, ∀ G : ℕ → ℝ, IsGradient 2 X (fun i => if i = j then 1 else 0) G → ∀ k < 2,
      Plane.gradient X j k = G k := by
    intro j hj G hG k hk
    have := hs.gradient_eq hG hk
    simpa [Finset.sum_ite_eq', hj] using this
  have k0 := key 0 (by omega) (fun k => if k = 0 then (X 1 1 - X 2 1) / det2 X else (X 2 0 - X 1 0) / det2 X)
    ⟨(X 1 0 * X 2 1 - X 2 0 * X 1 1) / det2 X, fun i hi => by
      interval_cases i <;> simp [Finset.sum_range_succ] <;> field_simp <;> unfold det2 <;> ring⟩
  have k1 := key 1 (by omega) (fun k => if k = 0 then (X 2 1 - X 0 1) / det2 X else (X 0 0 - X 2 0) / det2 X)
    ⟨(X 2 0 * X 0 1 - X 0 0 * X 2 1) / det2 X, fun i hi => by
      interval_cases i <;> simp [Finset.sum_range_succ] <;> field_simp <;> unfold det2 <;> ring⟩
  have k2 := key 2 (by omega) (fun k => if k = 0 then (X 0 1 - X 1 1) / det2 X else (X 1 0 - X 0 0) / det2 X)
    ⟨(X 0 0 * X 1 1 - X 1 0 * X 0 1) / det2 X, fun i hi => by
      interval_cases i <;> simp [Finset.sum_range_succ] <;> field_simp <;> unfold det2 <;> ring⟩
  refine ⟨⟨?_, ?_⟩, ⟨?_, ?_⟩, ⟨?_, ?_⟩⟩
  · simpa using k0 0 (by omega)
  · simpa using k0 1 (by omega)
  · simpa using k1 0 (by omega)
  · simpa using k1 1 (by omega)
  · simpa using k2 0 (by omega)
  · simpa using k2 1 (by omega)

/-- The divergence theorem on a triangle. -/
theorem integral_partialDeriv {X : ℕ → ℕ → ℝ} (hX : det2 X ≠ 0) {f : ℝ × ℝ → ℝ} (hf : ContDiff ℝ 1 f) (k : ℕ)
    (hk : k < 2) : ∫ p in triangle X, partialDeriv f k p = ∑ j ∈ Finset.range 3,
      -(2 * (area X * Plane.gradient X j k)) * edgeIntegral f (X ((j + 1) % 3)) (X ((j + 2) % 3)) := by
  have hd : ∀ p, DifferentiableAt ℝ f p := fun p => (hf.differentiable (by simp)).differentiableAt
  set F : ℝ × ℝ → ℝ := fun q => f (place X q) with hF
  have hplace : ContDiff ℝ 1 (place X) := by
    have : place X = fun q => (X 0 0, X 0 1) + placeLinear X q := funext (place_eq X)
    rw [this]
    exact contDiff_const.add (placeLinear X).contDiff
  have hFc : ContDiff ℝ 1 F := hf.comp hplace
  have hchain : ∀ q a b, fderiv ℝ F q (a, b) =
      ((X 1 0 - X 0 0) * a + (X 2 0 - X 0 0) * b) * partialDeriv f 0 (place X q) +
      ((X 1 1 - X 0 1) * a + (X 2 1 - X 0 1) * b) * partialDeriv f 1 (place X q) := by
    intro q a b
    have := (hd (place X q)).hasFDerivAt.comp q (hasFDerivAt_place X q)
    rw [show F = f ∘ place X from rfl, this.fderiv, ContinuousLinearMap.comp_apply]
    rw [← fderiv_partial (hd _)]
    congr 1
  have hs := integral_ref_fst hFc
  have ht := integral_ref_snd hFc
  have c1 : Continuous fun q => fderiv ℝ F q (1, 0) := (hFc.continuous_fderiv (by simp)).clm_apply continuous_const
  have c2 : Continuous fun q => fderiv ℝ F q (0, 1) := (hFc.continuous_fderiv (by simp)).clm_apply continuous_const
  -- the three sides
  have e0 : (∫ s in (0 : ℝ)..1, F (1 - s, s)) = edgeIntegral f (X 1) (X 2) := by
    refine intervalIntegral.integral_congr fun s _ => ?_
    simp only [hF, place]
    congr 2 <;> ring
  have e0' : (∫ s in (0 : ℝ)..1, F (s, 1 - s)) = edgeIntegral f (X 1) (X 2) := by
    rw [edgeIntegral_symm]
    refine intervalIntegral.integral_congr fun s _ => ?_
    simp only [hF, place]
    congr 2 <;> ring
  have e1 : (∫ s in (0 : ℝ)..1, F (0, s)) = edgeIntegral f (X 2) (X 0) := by
    rw [edgeIntegral_symm]
    refine intervalIntegral.integral_congr fun s _ => ?_
    simp only [hF, place]
    congr 2 <;> ring
  have e2 : (∫ s in (0 : ℝ)..1, F (s, 0)) = edgeIntegral f (X 0) (X 1) := by
    refine intervalIntegral.integral_congr fun s _ => ?_
    simp only [hF, place]
    congr 2 <;> ring
  rw [e0, e1] at hs
  rw [e0', e2] at ht
  obtain ⟨⟨g00, g01⟩, ⟨g10, g11⟩, ⟨g20, g21⟩⟩ := gradient_explicit hX
  have comb : ∀ a b : ℝ, ∫ q in refTriangle, (a * fderiv ℝ F q (1, 0) + b * fderiv ℝ F q (0, 1)) =
      a * (edgeIntegral f (X 1) (X 2) - edgeIntegral f (X 2) (X 0)) +
      b * (edgeIntegral f (X 1) (X 2) - edgeIntegral f (X 0) (X 1)) := by
    intro a b
    rw [integral_add ((integrableOn_refTriangle c1).const_mul a) ((integrableOn_refTriangle c2).const_mul b),
      integral_const_mul, integral_const_mul, hs, ht]
  rw [integral_triangle hX]
  interval_cases k
  · rw [integral_congr_ae (g := fun q => (X 2 1 - X 0 1) / det2 X * fderiv ℝ F q (1, 0) +
      -((X 1 1 - X 0 1) / det2 X) * fderiv ℝ F q (0, 1)) (Filter.Eventually.of_forall fun q => ?_), comb]
    · simp only [Finset.sum_range_succ, Finset.sum_range_zero, zero_add, Nat.reduceAdd, Nat.reduceMod, g00, g10, g20,
        area]
      ring
    · beta_reduce
      rw [hchain, hchain]
      field_simp
      unfold det2
      ring
  · rw [integral_congr_ae (g := fun q => -((X 2 0 - X 0 0) / det2 X) * fderiv ℝ F q (1, 0) +
      (X 1 0 - X 0 0) / det2 X * fderiv ℝ F q (0, 1)) (Filter.Eventually.of_forall fun q => ?_), comb]
    · simp only [Finset.sum_range_succ, Finset.sum_range_zero, zero_add, Nat.reduceAdd, Nat.reduceMod, g01, g11, g21,
        area]
      ring
    · beta_reduce
      rw [hchain, hchain]
      field_simp
      unfold det2
      ring

section faces

instance (elements : List (List ℕ)) (f : Multiset ℕ) : Decidable (BoundaryFace elements f) := by
  unfold BoundaryFace
  infer_instance

variable {K : Type _} [Field K] [LinearOrder K] [IsStrictOrderedRing K]

/-- In the sum over all faces of a mesh those in the interior cancel. -/
theorem boundary_sum {d : ℕ} (hd : 0 < d) {good : (ℕ → ℕ → K) → Prop}
    {size : (ℕ → ℕ → K) → K} {g : (ℕ → ℕ → K) → ℕ → ℕ → K} (F : SimplexFamily d good size g)
    {N : ℕ} {elements : List (List ℕ)} {nodes : ℕ → ℕ → K} (hv : ValidElements d N elements)
    (hgood : ∀ e ∈ elements, good (vertices nodes e)) (hno : NonOverlapping d elements nodes)
    (k : ℕ) (hk : k < d) (E : ℕ × ℕ → K)
    (hE : ∀ x ∈ faceNumbers d elements, ∀ y ∈ faceNumbers d elements,
      faceAt elements x.1 x.2 = faceAt elements y.1 y.2 → E x = E y) :
    ∑ x ∈ faceNumbers d elements, size (vertices nodes (elements.getD x.1 [])) *
      g (vertices nodes (elements.getD x.1 [])) x.2 k * E x =
    ∑ x ∈ (faceNumbers d elements).filter (fun x => BoundaryFace elements (faceAt elements x.1 x.2)),
      size (vertices nodes (elements.getD x.1 [])) *
        g (vertices nodes (elements.getD x.1 [])) x.2 k * E x := by
  have hlen : ∀ e ∈ elements, e.length = d + 1 := fun e he => (hv e he).1
  let n : ℕ × ℕ → K := fun x => size (vertices nodes (elements.getD x.1 [])) *
      g (vertices nodes (elements.getD x.1 [])) x.2 k
  rw [← Finset.sum_filter_add_sum_filter_not (faceNumbers d elements)
    (fun x => BoundaryFace elements (faceAt elements x.1 x.2))]
  refine add_eq_left.2 ?_
  set S := (faceNumbers d elements).filter fun x => ¬ BoundaryFace elements (faceAt elements x.1 x.2) with hS
  rw [← Finset.sum_fiberwise_of_maps_to (t := S.image fun x => faceAt elements x.1 x.2)
    (g := fun x => faceAt elements x.1 x.2) fun x hx => Finset.mem_image_of_mem _ hx]
  refine Finset.sum_eq_zero fun f hf => ?_
  obtain ⟨x0, hx0, rfl⟩ := Finset.mem_image.1 hf
  have hx0' := Finset.mem_filter.1 hx0
  set f := faceAt elements x0.1 x0.2 with hfdef
  have hset : (S.filter fun x => faceAt elements x.1 x.2 = f) =
      (faceNumbers d elements).filter fun x => faceAt elements x.1 x.2 = f := by
    ext x
    simp only [S, Finset.mem_filter]
    constructor
    · rintro ⟨⟨a, _⟩, b⟩; exact ⟨a, b⟩
    · rintro ⟨a, b⟩; exact ⟨⟨a, by rw [b]; exact hx0'.2⟩, b⟩
  rw [hset]
  set T := (faceNumbers d elements).filter fun x => faceAt elements x.1 x.2 = f with hT
  have hx0T : x0 ∈ T := Finset.mem_filter.2 ⟨hx0'.1, rfl⟩
  have hcancel : ∀ x ∈ T, ∀ y ∈ T, x ≠ y → n x + n y = 0 := by
    intro x hx y hy hxy
    rw [hT, Finset.mem_filter] at hx hy
    exact (fibre_zero hd F hv hgood hno hx.1 hy.1 hxy (hx.2.trans hy.2.symm) k hk).1
  have hval : ∑ x ∈ T, size (vertices nodes (elements.getD x.1 [])) *
        g (vertices nodes (elements.getD x.1 [])) x.2 k * E x = (∑ x ∈ T, n x) * E x0 := by
    rw [Finset.sum_mul]
    refine Finset.sum_congr rfl fun x hx => ?_
    rw [hT, Finset.mem_filter] at hx
    rw [hE x hx.1 x0 hx0'.1 (hx.2.trans hfdef)]
  rw [hval]
  refine mul_eq_zero_of_left ?_ _
  have hone : T.card ≠ 1 := by
    intro h
    refine hx0'.2 ?_
    unfold BoundaryFace
    rw [count_faces hlen, h]
  have hpos : 0 < T.card := Finset.card_pos.2 ⟨x0, hx0T⟩
  rcases Nat.lt_or_ge 2 T.card with h3 | h2
  · obtain ⟨a, ha, b, hb, c, hc, hab, hac, hbc⟩ := Finset.two_lt_card.1 h3
    have e1 := hcancel a ha b hb hab
    have e2 := hcancel a ha c hc hac
    have e3 := hcancel b hb c hc hbc
    have ha0 : n a = 0 := by linarith
    refine Finset.sum_eq_zero fun x hx => ?_
    by_cases hxa : x = a
    · rw [hxa]; exact ha0
    · have := hcancel x hx a ha hxa
      linarith
  · obtain ⟨a, b, hab, h⟩ := Finset.card_eq_two.1 (show T.card = 2 by omega)
    rw [h, Finset.sum_pair hab]
    exact hcancel a (by rw [h]; simp) b (by rw [h]; simp) hab

end faces

/-- The two nodes of the side opposite to a corner. -/
theorem faceAt_pair {elements : List (List ℕ)} (hl : ∀ e ∈ elements, e.length = 3) {t j : ℕ}
    (ht : t < elements.length) (hj : j < 3) : faceAt elements t j =
      ([(elements.getD t []).getD ((j + 1) % 3) 0, (elements.getD t []).getD ((j + 2) % 3) 0] : List ℕ) := by
  have := hl _ (getD_mem ht)
  unfold faceAt
  generalize elements.getD t [] = e at this
  match e, this with
  | [a, b, c], _ =>
    interval_cases j
    · rfl
    · exact Multiset.coe_eq_coe.2 (List.Perm.swap _ _ _)
    · rfl

theorem pair_cases {a b c d : ℕ} (h : (([a, b] : List ℕ) : Multiset ℕ) = ([c, d] : List ℕ)) :
    a = c ∧ b = d ∨ a = d ∧ b = c := by
  have h' := Multiset.coe_eq_coe.1 h
  have ha : a ∈ [c, d] := h'.mem_iff.1 (by simp)
  simp only [List.mem_cons, List.not_mem_nil, or_false] at ha
  rcases ha with rfl | rfl
  · have := (List.perm_cons a).1 h'
    exact Or.inl ⟨rfl, by simpa using this⟩
  · have := (List.perm_cons a).1 (h'.trans (List.Perm.swap _ _ _))
    exact Or.inr ⟨rfl, by simpa using this⟩

/-- The mean value of `s` times the affine function with the values `v` and `w` at the ends, on the
segment between two points. -/
noncomputable def edgeWork (s : ℝ × ℝ → ℝ) (a b : ℕ → ℝ) (v w : ℝ) : ℝ :=
  ∫ r in (0 : ℝ)..1, s ((1 - r) * a 0 + r * b 0, (1 - r) * a 1 + r * b 1) * ((1 - r) * v + r * w)

theorem edgeWork_symm (s : ℝ × ℝ → ℝ) (a b : ℕ → ℝ) (v w : ℝ) : edgeWork s a b v w = edgeWork s b a w v := by
  unfold edgeWork
  have := intervalIntegral.integral_comp_sub_left (a := 0) (b := 1)
    (fun r : ℝ => s ((1 - r) * a 0 + r * b 0, (1 - r) * a 1 + r * b 1) * ((1 - r) * v + r * w)) 1
  rw [sub_self, sub_zero] at this
  rw [← this]
  refine intervalIntegral.integral_congr fun r _ => ?_
  congr 1
  · congr 2 <;> ring
  · ring

/-- The work on the side opposite to corner `j` of the element number `t`. -/
noncomputable def sideWork (nodes : ℕ → ℕ → ℝ) (elements : List (List ℕ)) (x : ℕ → ℝ) (s : ℝ × ℝ → ℝ)
    (n : ℕ × ℕ) : ℝ :=
  edgeWork s (nodes ((elements.getD n.1 []).getD ((n.2 + 1) % 3) 0))
    (nodes ((elements.getD n.1 []).getD ((n.2 + 2) % 3) 0))
    (x ((elements.getD n.1 []).getD ((n.2 + 1) % 3) 0)) (x ((elements.getD n.1 []).getD ((n.2 + 2) % 3) 0))

theorem sideWork_congr {nodes : ℕ → ℕ → ℝ} {elements : List (List ℕ)} (hl : ∀ e ∈ elements, e.length = 3)
    (x : ℕ → ℝ) (s : ℝ × ℝ → ℝ) : ∀ n ∈ faceNumbers 2 elements, ∀ n' ∈ faceNumbers 2 elements,
      faceAt elements n.1 n.2 = faceAt elements n'.1 n'.2 →
      sideWork nodes elements x s n = sideWork nodes elements x s n' := by
  rintro ⟨t, j⟩ hn ⟨t', j'⟩ hn' h
  simp only [faceNumbers, Finset.mem_product, Finset.mem_range] at hn hn'
  simp only [faceAt_pair hl hn.1 hn.2, faceAt_pair hl hn'.1 hn'.2] at h
  unfold sideWork
  rcases pair_cases h with ⟨h1, h2⟩ | ⟨h1, h2⟩
  · rw [h1, h2]
  · rw [h1, h2, edgeWork_symm]

/-- Integration by parts on one triangle. -/
theorem green_triangle {X : ℕ → ℕ → ℝ} (hX : det2 X ≠ 0) {s : ℕ → ℝ × ℝ → ℝ} (hs : ∀ k < 2, ContDiff ℝ 1 (s k))
    {c : ℝ} {G v : ℕ → ℝ} (hv : ∀ i < 3, v i = c + G 0 * X i 0 + G 1 * X i 1) :
    ∫ p in triangle X, (s 0 p * G 0 + s 1 p * G 1) =
      -(∫ p in triangle X, (partialDeriv (s 0) 0 p + partialDeriv (s 1) 1 p) * (c + G 0 * p.1 + G 1 * p.2)) +
      ∑ j ∈ Finset.range 3, ∑ k ∈ Finset.range 2, -(2 * (area X * Plane.gradient X j k)) *
        edgeWork (s k) (X ((j + 1) % 3)) (X ((j + 2) % 3)) (v ((j + 1) % 3)) (v ((j + 2) % 3)) := by
  set W : ℝ × ℝ → ℝ := fun p => c + G 0 * p.1 + G 1 * p.2 with hW
  have hWc : ContDiff ℝ 1 W := by
    simp only [hW]
    exact (contDiff_const.add (contDiff_const.mul contDiff_fst)).add (contDiff_const.mul contDiff_snd)
  have hWp : ∀ p, ∀ k < 2, partialDeriv W k p = G k := by
    intro p k hk
    interval_cases k
    · have : HasDerivAt (fun r : ℝ => c + G 0 * r + G 1 * p.2) (G 0) p.1 := by
        simpa using (((hasDerivAt_id p.1).const_mul (G 0)).const_add c).add_const (G 1 * p.2)
      exact this.deriv
    · have : HasDerivAt (fun r : ℝ => c + G 0 * p.1 + G 1 * r) (G 1) p.2 := by
        simpa using ((hasDerivAt_id p.2).const_mul (G 1)).const_add (c + G 0 * p.1)
      exact this.deriv
  have hprod : ∀ k < 2, ∀ p, partialDeriv (fun p => s k p * W p) k p =
      partialDeriv (s k) k p * W p + s k p * G k := by
    intro k hk p
    have d1 : DifferentiableAt ℝ (s k) p := ((hs k hk).differentiable (by simp)).differentiableAt
    have d2 : DifferentiableAt ℝ W p := (hWc.differentiable (by simp)).differentiableAt
    have hm : HasFDerivAt (fun p => s k p * W p) _ p := d1.hasFDerivAt.mul d2.hasFDerivAt
    rw [← hWp p k hk]
    interval_cases k
    · rw [partialDeriv_fst hm.differentiableAt, hm.fderiv, partialDeriv_fst d1, partialDeriv_fst d2]
      simp only [_root_.add_apply, _root_.smul_apply, smul_eq_mul]
      ring
    · rw [partialDeriv_snd hm.differentiableAt, hm.fderiv, partialDeriv_snd d1, partialDeriv_snd d2]
      simp only [_root_.add_apply, _root_.smul_apply, smul_eq_mul]
      ring
  have hint : ∀ f : ℝ × ℝ → ℝ, Continuous f → IntegrableOn f (triangle X) := fun f hf =>
    hf.continuousOn.integrableOn_compact (isCompact_triangle X)
  have cs : ∀ k < 2, Continuous (s k) := fun k hk => (hs k hk).continuous
  have cd : ∀ k < 2, Continuous (partialDeriv (s k) k) := fun k hk =>
    (contDiff_partialDeriv (n := 0) (by simpa using hs k hk) k).continuous
  have cW : Continuous W := hWc.continuous
  have hedge : ∀ j < 3, ∀ k, edgeIntegral (fun p => s k p * W p) (X ((j + 1) % 3)) (X ((j + 2) % 3)) =
      edgeWork (s k) (X ((j + 1) % 3)) (X ((j + 2) % 3)) (v ((j + 1) % 3)) (v ((j + 2) % 3)) := by
    intro j hj k
    refine intervalIntegral.integral_congr fun r _ => ?_
    beta_reduce
    congr 1
    rw [hv _ (Nat.mod_lt _ (by omega)), hv _ (Nat.mod_lt _ (by omega))]
    simp only [hW]
    ring
  have hdiv : ∀ k (hk : k < 2), (∫ p in triangle X, partialDeriv (s k) k p * W p) +
      (∫ p in triangle X, s k p * G k) = ∑ j ∈ Finset.range 3, -(2 * (area X * Plane.gradient X j k)) *
        edgeWork (s k) (X ((j + 1) % 3)) (X ((j + 2) % 3)) (v ((j + 1) % 3)) (v ((j + 2) % 3)) := by
    intro k hk
    rw [← integral_add (hint (fun p => partialDeriv (s k) k p * W p) ((cd k hk).mul cW))
        (hint (fun p => s k p * G k) ((cs k hk).mul continuous_const)),
      Finset.sum_congr rfl fun j hj => by rw [← hedge j (Finset.mem_range.1 hj) k],
      ← integral_partialDeriv hX ((hs k hk).mul hWc) k hk]
    simp only [hprod k hk]
  have h0 := hdiv 0 (by omega)
  have h1 := hdiv 1 (by omega)
  rw [integral_add (hint (fun p => s 0 p * G 0) ((cs 0 (by omega)).mul continuous_const))
    (hint (fun p => s 1 p * G 1) ((cs 1 (by omega)).mul continuous_const))]
  have hsplit : ∫ p in triangle X, (partialDeriv (s 0) 0 p + partialDeriv (s 1) 1 p) * W p =
      (∫ p in triangle X, partialDeriv (s 0) 0 p * W p) + ∫ p in triangle X, partialDeriv (s 1) 1 p * W p := by
    rw [← integral_add (hint (fun p => partialDeriv (s 0) 0 p * W p) ((cd 0 (by omega)).mul cW))
      (hint (fun p => partialDeriv (s 1) 1 p * W p) ((cd 1 (by omega)).mul cW))]
    exact integral_congr_ae (Filter.Eventually.of_forall fun p => by beta_reduce; ring)
  rw [hsplit]
  simp only [Finset.sum_range_succ, Finset.sum_range_zero, zero_add] at h0 h1 ⊢
  linarith

/-- Integration by parts on a body made of triangles. -/
theorem green_body {N : ℕ} {nodes : ℕ → ℕ → ℝ} {elements : List (List ℕ)} (hv : ValidElements 2 N elements)
    (hn : Nondegenerate2 elements nodes) (ho : NonOverlapping 2 elements nodes) {s : ℕ → ℝ × ℝ → ℝ}
    (hs : ∀ k < 2, ContDiff ℝ 1 (s k)) {x : ℕ → ℝ} {c : ℕ → ℝ} {G : ℕ → ℕ → ℝ}
    (hx : ∀ t < elements.length, ∀ i < 3, valuesOn (elements.getD t []) x i = c t +
      G t 0 * vertices nodes (elements.getD t []) i 0 + G t 1 * vertices nodes (elements.getD t []) i 1) :
    (sumElements elements fun t e => ∫ p in triangle (vertices nodes e), (s 0 p * G t 0 + s 1 p * G t 1)) =
      -(sumElements elements fun t e => ∫ p in triangle (vertices nodes e),
        (partialDeriv (s 0) 0 p + partialDeriv (s 1) 1 p) * (c t + G t 0 * p.1 + G t 1 * p.2)) +
      ∑ n ∈ (faceNumbers 2 elements).filter (fun n => BoundaryFace elements (faceAt elements n.1 n.2)),
        ∑ k ∈ Finset.range 2, -2 * (area (vertices nodes (elements.getD n.1 [])) *
          Plane.gradient (vertices nodes (elements.getD n.1 [])) n.2 k * sideWork nodes elements x (s k) n) := by
  have hlen : ∀ e ∈ elements, e.length = 3 := fun e he => (hv e he).1
  have hb : ∀ k (hk : k < 2), _ := fun k hk => boundary_sum (by omega) Plane.family hv hn ho k hk
    (sideWork nodes elements x (s k)) (sideWork_congr hlen x (s k))
  rw [Finset.sum_comm]
  have hb' : ∑ k ∈ Finset.range 2, ∑ n ∈ (faceNumbers 2 elements).filter
      (fun n => BoundaryFace elements (faceAt elements n.1 n.2)),
        -2 * (area (vertices nodes (elements.getD n.1 [])) *
          Plane.gradient (vertices nodes (elements.getD n.1 [])) n.2 k * sideWork nodes elements x (s k) n) =
      ∑ k ∈ Finset.range 2, ∑ n ∈ faceNumbers 2 elements, -2 * (area (vertices nodes (elements.getD n.1 [])) *
          Plane.gradient (vertices nodes (elements.getD n.1 [])) n.2 k * sideWork nodes elements x (s k) n) := by
    refine Finset.sum_congr rfl fun k hk => ?_
    rw [← Finset.mul_sum, ← Finset.mul_sum, hb k (Finset.mem_range.1 hk)]
  rw [hb', Finset.sum_comm, faceNumbers, Finset.sum_product]
  unfold sumElements
  rw [← Finset.sum_neg_distrib, ← Finset.sum_add_distrib]
  refine Finset.sum_congr rfl fun t ht => ?_
  have ht := Finset.mem_range.1 ht
  beta_reduce
  rw [green_triangle (det2_getD hn ht) hs (hx t ht)]
  congr 1
  refine Finset.sum_congr rfl fun j _ => Finset.sum_congr rfl fun k _ => ?_
  simp only [sideWork, vertices, valuesOn]
  ring

end Conmech
