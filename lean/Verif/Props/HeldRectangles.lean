import Verif.Props.NestedMeshes
import Verif.Props.Solvable
/-!
C74 and C104: a generated rectangle that is held on one of its sides is held everywhere, so that the
static problems have exactly one solution.
-/
namespace Conmech
open Spec

section
variable {K : Type} [Field K] [LinearOrder K] [IsStrictOrderedRing K]
variable {sx sy : ℕ} {ex ey : K} {nodes : List (K × K)} {elements : List (List ℕ)} {ρ : ℕ × ℕ → ℕ}

/-- A property of the points of the grid which goes over from two corners of a triangle to the third. -/
def Spreads (sx sy : ℕ) (H : ℕ × ℕ → Prop) : Prop :=
  ∀ x ∈ triangleNumbers sx sy,
    (H (halfRow x.1.1 x.1.2 x.2).1 → H (halfRow x.1.1 x.1.2 x.2).2.1 → H (halfRow x.1.1 x.1.2 x.2).2.2) ∧
    (H (halfRow x.1.1 x.1.2 x.2).1 → H (halfRow x.1.1 x.1.2 x.2).2.2 → H (halfRow x.1.1 x.1.2 x.2).2.1) ∧
    (H (halfRow x.1.1 x.1.2 x.2).2.1 → H (halfRow x.1.1 x.1.2 x.2).2.2 → H (halfRow x.1.1 x.1.2 x.2).1)

/-- The five points of a cell. -/
structure CellHeld (H : ℕ × ℕ → Prop) (i j : ℕ) : Prop where
  c00 : H (2 * i, 2 * j)
  c10 : H (2 * i + 2, 2 * j)
  c11 : H (2 * i + 2, 2 * j + 2)
  c01 : H (2 * i, 2 * j + 2)
  mid : H (2 * i + 1, 2 * j + 1)

theorem Spreads.cell {H : ℕ × ℕ → Prop} (h : Spreads sx sy H) {i j : ℕ} (hi : i < sx) (hj : j < sy)
    (hside : (H (2 * i, 2 * j) ∧ H (2 * i + 2, 2 * j)) ∨ (H (2 * i + 2, 2 * j) ∧ H (2 * i + 2, 2 * j + 2)) ∨
      (H (2 * i + 2, 2 * j + 2) ∧ H (2 * i, 2 * j + 2)) ∨ (H (2 * i, 2 * j + 2) ∧ H (2 * i, 2 * j))) :
    CellHeld H i j := by
  have t := fun n (hn : n < 4) => h ((i, j), n) ((mem_triangleNumbers _).2 ⟨hi, hj, hn⟩)
  have t0 := t 0 (by omega)
  have t1 := t 1 (by omega)
  have t2 := t 2 (by omega)
  have t3 := t 3 (by omega)
  simp only [halfRow] at t0 t1 t2 t3
  have e1 : 2 * (i + 1) = 2 * i + 2 := by ring
  have e2 : 2 * (j + 1) = 2 * j + 2 := by ring
  simp only [e1, e2] at t0 t1 t2 t3
  rcases hside with ⟨a, b⟩ | ⟨a, b⟩ | ⟨a, b⟩ | ⟨a, b⟩
  · have m := t0.1 a b
    have c := t1.2.1 b m
    exact ⟨a, b, c, t2.2.1 c m, m⟩
  · have m := t1.1 a b
    have c := t2.2.1 b m
    exact ⟨t3.2.1 c m, a, b, c, m⟩
  · have m := t2.1 a b
    have c := t3.2.1 b m
    exact ⟨c, t0.2.1 c m, a, b, m⟩
  · have m := t3.1 a b
    have c := t0.2.1 b m
    exact ⟨b, c, t1.2.1 c m, a, m⟩

/-- If it holds at the ends of the parts of a side, it holds in all cells. -/
theorem Spreads.cells {H : ℕ × ℕ → Prop} (h : Spreads sx sy H) (s : Side)
    (hs : ∀ n ≤ s.parts sx sy, H (sideEnd sx sy s n)) : ∀ i < sx, ∀ j < sy, CellHeld H i j := by
  cases s with
  | bottom =>
    intro i hi j
    induction j with
    | zero =>
      intro hj
      exact h.cell hi hj (Or.inl ⟨hs i hi.le, hs (i + 1) hi⟩)
    | succ j ih =>
      intro hj
      have c := ih (by omega)
      exact h.cell hi hj (Or.inl ⟨c.c01, c.c11⟩)
  | left =>
    intro i hi j hj
    induction i with
    | zero => exact h.cell hi hj (Or.inr (Or.inr (Or.inr ⟨hs (j + 1) hj, hs j hj.le⟩)))
    | succ i ih =>
      have c := ih (by omega)
      exact h.cell hi hj (Or.inr (Or.inr (Or.inr ⟨c.c11, c.c10⟩)))
  | top =>
    have key : ∀ i < sx, ∀ n < sy, CellHeld H i (sy - 1 - n) := by
      intro i hi n
      induction n with
      | zero =>
        intro hn
        refine h.cell hi (by omega) (Or.inr (Or.inr (Or.inl ⟨?_, ?_⟩)))
        · have := hs (i + 1) hi
          rw [sideEnd] at this
          rwa [show 2 * (sy - 1 - 0) + 2 = 2 * sy by omega]
        · have := hs i hi.le
          rw [sideEnd] at this
          rwa [show 2 * (sy - 1 - 0) + 2 = 2 * sy by omega]
      | succ n ih =>
        intro hn
        have c := ih (by omega)
        refine h.cell hi (by omega) (Or.inr (Or.inr (Or.inl ?_)))
        rw [show 2 * (sy - 1 - (n + 1)) + 2 = 2 * (sy - 1 - n) by omega]
        exact ⟨c.c10, c.c00⟩
    intro i hi j hj
    have := key i hi (sy - 1 - j) (by omega)
    rwa [show sy - 1 - (sy - 1 - j) = j by omega] at this
  | right =>
    have key : ∀ j < sy, ∀ n < sx, CellHeld H (sx - 1 - n) j := by
      intro j hj n
      induction n with
      | zero =>
        intro hn
        refine h.cell (by omega) hj (Or.inr (Or.inl ⟨?_, ?_⟩))
        · have := hs j hj.le
          rw [sideEnd] at this
          rwa [show 2 * (sx - 1 - 0) + 2 = 2 * sx by omega]
        · have := hs (j + 1) hj
          rw [sideEnd] at this
          rwa [show 2 * (sx - 1 - 0) + 2 = 2 * sx by omega]
      | succ n ih =>
        intro hn
        have c := ih (by omega)
        refine h.cell (by omega) hj (Or.inr (Or.inl ?_))
        rw [show 2 * (sx - 1 - (n + 1)) + 2 = 2 * (sx - 1 - n) by omega]
        exact ⟨c.c00, c.c01⟩
    intro i hi j hj
    have := key j hj (sx - 1 - i) (by omega)
    rwa [show sx - 1 - (sx - 1 - i) = i by omega] at this

theorem Spreads.all {H : ℕ × ℕ → Prop} (h : Spreads sx sy H) (hx : 1 ≤ sx) (hy : 1 ≤ sy) (s : Side)
    (hs : ∀ n ≤ s.parts sx sy, H (sideEnd sx sy s n)) {g : ℕ × ℕ} (hg : OnGrid sx sy g) : H g := by
  have c := h.cells s hs
  obtain ⟨a, b⟩ := g
  obtain ⟨h1, h2, h3⟩ := hg
  simp only at h1 h2 h3
  by_cases hodd : a % 2 = 1
  · have := (c (a / 2) (by omega) (b / 2) (by omega)).mid
    rwa [show 2 * (a / 2) + 1 = a by omega, show 2 * (b / 2) + 1 = b by omega] at this
  · by_cases ha : a = 2 * sx
    · by_cases hb : b = 2 * sy
      · have := (c (sx - 1) (by omega) (sy - 1) (by omega)).c11
        rwa [show 2 * (sx - 1) + 2 = a by omega, show 2 * (sy - 1) + 2 = b by omega] at this
      · have := (c (sx - 1) (by omega) (b / 2) (by omega)).c10
        rwa [show 2 * (sx - 1) + 2 = a by omega, show 2 * (b / 2) = b by omega] at this
    · by_cases hb : b = 2 * sy
      · have := (c (a / 2) (by omega) (sy - 1) (by omega)).c01
        rwa [show 2 * (a / 2) = a by omega, show 2 * (sy - 1) + 2 = b by omega] at this
      · have := (c (a / 2) (by omega) (b / 2) (by omega)).c00
        rwa [show 2 * (a / 2) = a by omega, show 2 * (b / 2) = b by omega] at this

theorem getD_of_mem {e : List ℕ} {n v : ℕ} (hl : e.length = n) (h : v ∈ e) : ∃ i < n, e.getD i 0 = v := by
  obtain ⟨i, hi, rfl⟩ := List.mem_iff_getElem.1 h
  exact ⟨i, by omega, List.getD_eq_getElem _ _ hi⟩

/-- Nodes held in place spread over the mesh. -/
theorem GridMesh.spreads (m : GridMesh sx sy ex ey nodes elements ρ) (hex : 0 < ex) (hey : 0 < ey)
    (fixed : ℕ → Prop) : Spreads sx sy fun g => Held elements fixed (ρ g) := by
  intro x hx
  obtain ⟨g1, g2, g3⟩ := halfRow_onGrid hx
  obtain ⟨e, he, hp⟩ : ∃ e ∈ elements, e.Perm [ρ (halfRow x.1.1 x.1.2 x.2).1, ρ (halfRow x.1.1 x.1.2 x.2).2.1,
      ρ (halfRow x.1.1 x.1.2 x.2).2.2] := by
    obtain ⟨t, ht, rfl⟩ := List.mem_iff_getElem.1 hx
    have := forall₂_getD [] ((0, 0), 0) m.elems t (by rw [m.elems.length_eq]; exact ht)
    rw [List.getD_eq_getElem _ _ (by rw [m.elems.length_eq]; exact ht), List.getD_eq_getElem _ _ ht] at this
    exact ⟨_, List.getElem_mem _, this⟩
  have hl : e.length = 3 := by rw [hp.length_eq]; rfl
  have mem : ∀ v ∈ [ρ (halfRow x.1.1 x.1.2 x.2).1, ρ (halfRow x.1.1 x.1.2 x.2).2.1,
      ρ (halfRow x.1.1 x.1.2 x.2).2.2], ∃ i < 3, e.getD i 0 = v := fun v hv =>
    getD_of_mem hl (hp.mem_iff.2 hv)
  obtain ⟨i, hi, ei⟩ := mem (ρ (halfRow x.1.1 x.1.2 x.2).1) (by simp)
  obtain ⟨j, hj, ej⟩ := mem (ρ (halfRow x.1.1 x.1.2 x.2).2.1) (by simp)
  obtain ⟨k, hk, ek⟩ := mem (ρ (halfRow x.1.1 x.1.2 x.2).2.2) (by simp)
  have hne : (halfRow x.1.1 x.1.2 x.2).1 ≠ (halfRow x.1.1 x.1.2 x.2).2.1 ∧
      (halfRow x.1.1 x.1.2 x.2).1 ≠ (halfRow x.1.1 x.1.2 x.2).2.2 ∧
      (halfRow x.1.1 x.1.2 x.2).2.1 ≠ (halfRow x.1.1 x.1.2 x.2).2.2 := by
    obtain ⟨⟨a, b⟩, n⟩ := x
    obtain ⟨h1, h2, h3⟩ := (mem_triangleNumbers _).1 hx
    simp only at h1 h2 h3
    interval_cases n <;> simp only [halfRow, Ne, Prod.mk.injEq] <;> omega
  have hij : i ≠ j := by
    rintro rfl
    exact hne.1 (m.inj hex hey g1 g2 (ei.symm.trans ej))
  have hik : i ≠ k := by
    rintro rfl
    exact hne.2.1 (m.inj hex hey g1 g3 (ei.symm.trans ek))
  have hjk : j ≠ k := by
    rintro rfl
    exact hne.2.2 (m.inj hex hey g2 g3 (ej.symm.trans ek))
  simp only [← ei, ← ej, ← ek]
  exact ⟨fun a b => .triangle e he i j k hi hj hij hk a b, fun a b => .triangle e he i k j hi hk hik hj a b,
    fun a b => .triangle e he j k i hj hk hjk hi a b⟩

theorem Spec.Held.joined {elements : List (List ℕ)} {fixed : ℕ → Prop} {p : ℕ} (h : Held elements fixed p) :
    Joined 3 elements fixed p := by
  induction h with
  | fixed p h => exact .fixed p h
  | triangle e he i j k hi hj hij hk h1 h2 ih1 ih2 => exact .element e he i k hi hk ih1

variable {width height : K} {isContact isDirichlet : K × K → Bool} {m : MeshBoundaries (K × K)}

/-- A generated rectangle that is held on one of its sides is held everywhere. -/
theorem Generated.held (h : Generated sx sy width height isContact isDirichlet m ρ) (hw : 0 < width)
    (hh : 0 < height) {held : Side → Bool} (hd : HoldsSides width height isDirichlet held) {s : Side}
    (hs : held s = true) {p : ℕ} (hp : p < m.nodes.length) :
    Held m.elements (fun q => q < m.nodes.length ∧ (supportedOf m).supported q) p := by
  have x0 : (0 : K) < sx := by exact_mod_cast h.sx_pos
  have y0 : (0 : K) < sy := by exact_mod_cast h.sy_pos
  have hex := div_pos hw x0
  have hey := div_pos hh y0
  have e1 : (sx : K) * (width / sx) = width := mul_div_cancel₀ _ x0.ne'
  have e2 : (sy : K) * (height / sy) = height := mul_div_cancel₀ _ y0.ne'
  obtain ⟨g, hg, rfl⟩ := h.grid.onto p hp
  refine (h.grid.spreads hex hey _).all h.sx_pos h.sy_pos s (fun n hn => ?_) hg
  have hE := sideEnd_onGrid (sx := sx) (sy := sy) s hn
  have hat := h.grid.at_grid _ hE
  have hlt := (List.getElem?_eq_some_iff.1 hat).1
  refine .fixed _ ⟨hlt, (h.supported hw hh hd hlt).2 ⟨s, hs, _, hat, ?_⟩⟩
  have side := onSide_iff hex hey hE s
  rw [e1, e2] at side
  rw [side]
  cases s <;> rfl

/-- A solution of a linear system, if there is one. -/
noncomputable def someSolution (n : ℕ) (S : System K) : ℕ → K :=
  open Classical in if h : ∃ x, Solves n S x then h.choose else fun _ => 0

omit [LinearOrder K] [IsStrictOrderedRing K] in
theorem someSolution_solves {n : ℕ} {S : System K} (h : UniquelySolvable n S) :
    Solves n S (someSolution n S) := by
  obtain ⟨x, hx, -⟩ := h
  have h : ∃ x, Solves n S x := ⟨x, hx⟩
  rw [someSolution, dif_pos h]
  exact h.choose_spec

/-- The list of the supported nodes. -/
noncomputable def supportedList (m : SupportedMesh K) : List ℕ :=
  open Classical in (List.range m.count).filter fun p => m.supported p

omit [LinearOrder K] [IsStrictOrderedRing K] in
theorem supportedList_data (m : SupportedMesh K) (hne : ∃ p < m.count, m.supported p) (k : ℕ) :
    ValidBoundaries m.count [(⟨.list (supportedList m), fun _ => 0⟩ : CondBoundary K)] ∧
    DirichletData m.count k [(⟨.list (supportedList m), fun _ => 0⟩ : CondBoundary K)]
      (fun r => r < k * m.count ∧ m.supported (r % m.count)) fun _ => 0 := by
  have mem : ∀ p, p ∈ supportedList m ↔ p < m.count ∧ m.supported p := fun p => by simp [supportedList]
  obtain ⟨p, hp, hS⟩ := hne
  refine ⟨?_, fun r => ⟨?_, ?_⟩, ?_⟩
  · intro b hb
    rw [List.mem_singleton] at hb
    subst hb
    refine ⟨fun v hv => ((mem v).1 hv).1, ?_⟩
    intro i hi h0
    simp only [NodeIndices.list.injEq] at hi
    have := (mem p).2 ⟨hp, hS⟩
    rw [hi, h0] at this
    cases this
  · rintro ⟨h1, h2⟩
    have hN : 0 < m.count := by omega
    have hr := (mem (r % m.count)).2 ⟨Nat.mod_lt _ hN, h2⟩
    obtain ⟨j, hj, he⟩ := List.mem_iff_getElem.1 hr
    refine ⟨0, _, List.mem_singleton.2 rfl, r / m.count, Nat.div_lt_of_lt_mul (by rwa [Nat.mul_comm]), j,
      r % m.count, ?_, ?_, rfl⟩
    · show (supportedList m)[j]? = _
      rw [List.getElem?_eq_getElem hj, he]
    · rw [Nat.mul_comm]
      exact (Nat.div_add_mod r m.count).symm
  · rintro ⟨v, b, hb, d, hd, j, node, hj, hx, -⟩
    rw [List.mem_singleton] at hb
    subst hb
    obtain ⟨h1, h2⟩ := (mem node).1 (List.mem_of_getElem? hj)
    rw [hx, Nat.mul_comm d, Nat.mul_add_mod, Nat.mod_eq_of_lt h1]
    exact ⟨by nlinarith, h2⟩
  · rintro x v ⟨b, hb, d, hd, j, node, hj, hx, hv⟩
    rw [List.mem_singleton] at hb
    subst hb
    exact hv

/-- The problem on a mesh, solved exactly. -/
noncomputable def meshEngine (m : SupportedMesh K) (kind : StatementKind) (n : ℕ) (mu lam k : K) (f : ℕ → K) :
    Engine K where
  grid := { nodesCount := m.count, dimension := 2, nodes := m.nodes }
  cls := .staticGlobal
  kind := kind
  ops :=
    { nodesCount := m.count
      dimension := 2
      elasticity := Plane.constitutive m.count (basicMatrices2 m.elements m.nodes).W mu lam
      viscosity := fun _ _ => 0
      acceleration := fun _ _ => 0
      poisson := poissonMatrix 2 (basicMatrices2 m.elements m.nodes).W k
      thermalExpansion := fun _ _ => 0
      thermalConductivity := fun _ _ => 0
      permittivity := fun _ _ => 0
      piezoelectricity := fun _ _ => 0
      relaxation := fun _ => .error .relaxation
      force := fun _ => f
      bodyTemperature := fun _ => f }
  boundaries := [⟨.list (supportedList m), fun _ => 0⟩]
  solve := fun s _ => someSolution n s.system

/-- The static problem has a solution on every mesh whose supported nodes hold all others. -/
theorem staticOn_exists {m : SupportedMesh K} (hm : m.Good)
    (hh : ∀ p < m.count, Held m.elements (fun q => q < m.count ∧ m.supported q) p)
    (hne : ∃ p < m.count, m.supported p) (sqrt : K → K) {mu lam : K} (hmu : 0 < mu) (hlam : 0 ≤ lam)
    (c q : ℕ → K) : ∃ f u, StaticOn sqrt m mu lam c q f u := by
  classical
  obtain ⟨f, hf, -⟩ := C31_integrate sqrt 2 (Or.inl rfl) m.nodes m.count m.sides
    (basicMatrices2 m.elements m.nodes).volumeAtNodes (fun s hs => (hm.sides s hs).1) (fun _ => c) fun _ => q
  obtain ⟨hb, hd⟩ := supportedList_data m hne 2
  have hreg : Registered .StaticDisplacementProblem .staticGlobal .staticDisplacement :=
    ⟨⟨.static, by decide +kernel, by decide +kernel⟩, Or.inl (by decide +kernel)⟩
  have held : ∀ p < m.count, Held m.elements (fun q => q < m.count ∧
      (q < 2 * m.count ∧ m.supported (q % m.count)) ∧
      m.count + q < 2 * m.count ∧ m.supported ((m.count + q) % m.count)) p := by
    intro p hp
    have mono : ∀ {p : ℕ}, Held m.elements (fun q => q < m.count ∧ m.supported q) p →
        Held m.elements (fun q => q < m.count ∧ (q < 2 * m.count ∧ m.supported (q % m.count)) ∧
          m.count + q < 2 * m.count ∧ m.supported ((m.count + q) % m.count)) p := by
      intro p h
      induction h with
      | fixed p h =>
        refine .fixed p ⟨h.1, ⟨by omega, ?_⟩, by omega, ?_⟩
        · rw [Nat.mod_eq_of_lt h.1]; exact h.2
        · rw [Nat.add_mod_left, Nat.mod_eq_of_lt h.1]; exact h.2
      | triangle e he i j k hi hj hij hk h1 h2 ih1 ih2 => exact .triangle e he i j k hi hj hij hk ih1 ih2
    exact mono (hh p hp)
  have hu := C74_definite m.count 2 (meshEngine m .staticDisplacement (2 * m.count) mu lam 0 f).boundaries
    ⟨(meshEngine m .staticDisplacement (2 * m.count) mu lam 0 f).ops.elasticity, f⟩ _ _ hb hd
    (C74_elastic2 hm.valid hm.nondegenerate mu lam hmu hlam _ held)
  refine ⟨f, _, meshEngine m .staticDisplacement (2 * m.count) mu lam 0 f, ⟨rfl, rfl, rfl⟩, rfl, hf,
    .StaticDisplacementProblem, fun _ A => A, 0, false, 1, _, fun _ _ => 0, [],
    ⟨fun _ => ⟨"", none, []⟩, 0⟩, _, _, rfl, hreg, hb, hd, rfl, ?_, rfl, rfl⟩
  intro S guess h1 h2
  change Solves (2 * m.count) S.system (someSolution (2 * m.count) S.system)
  rw [h1]
  exact someSolution_solves hu

/-- The Poisson problem has a solution on every mesh whose nodes are joined to supported ones. -/
theorem poissonOn_exists {m : SupportedMesh K} (hm : m.Good)
    (hh : ∀ p < m.count, Joined 3 m.elements (fun q => q < m.count ∧ m.supported q) p)
    (hne : ∃ p < m.count, m.supported p) (sqrt : K → K) {k : K} (hk : k ≠ 0) (c q : K) :
    ∃ f T, PoissonOn sqrt m k c q f T := by
  classical
  obtain ⟨f, hf, -⟩ := C31_integrate sqrt 2 (Or.inl rfl) m.nodes m.count m.sides
    (basicMatrices2 m.elements m.nodes).volumeAtNodes (fun s hs => (hm.sides s hs).1) (fun _ _ => c)
    fun _ _ => q
  obtain ⟨hb, hd⟩ := supportedList_data m hne 1
  have hD : (fun r => r < 1 * m.count ∧ m.supported (r % m.count)) =
      fun r => r < m.count ∧ m.supported r := by
    funext r
    rw [Nat.one_mul]
    refine propext ⟨fun h => ⟨h.1, ?_⟩, fun h => ⟨h.1, ?_⟩⟩
    · have := h.2
      rwa [Nat.mod_eq_of_lt h.1] at this
    · rw [Nat.mod_eq_of_lt h.1]
      exact h.2
  rw [hD] at hd
  have hreg : Registered .PoissonProblem .staticGlobal .staticPoisson :=
    ⟨⟨.static, by decide +kernel, by decide +kernel⟩, Or.inr (by decide +kernel)⟩
  have hj : ∀ p < m.count, Joined 3 m.elements (fun q => q < m.count ∧ q < m.count ∧ m.supported q) p := by
    have mono : ∀ {p : ℕ}, Joined 3 m.elements (fun q => q < m.count ∧ m.supported q) p →
        Joined 3 m.elements (fun q => q < m.count ∧ q < m.count ∧ m.supported q) p := by
      intro p h
      induction h with
      | fixed p h => exact .fixed p ⟨h.1, h⟩
      | element e he i k hi hk h ih => exact .element e he i k hi hk ih
    exact fun p hp => mono (hh p hp)
  have hu := C74_definite m.count 1 (meshEngine m .staticPoisson m.count 0 0 k f).boundaries
    ⟨(meshEngine m .staticPoisson m.count 0 0 k f).ops.poisson, f⟩ _ _ hb hd
    (by rw [Nat.one_mul]; exact C74_poisson2 hm.valid hm.nondegenerate k hk _ hj)
  rw [Nat.one_mul] at hu
  refine ⟨f, _, meshEngine m .staticPoisson m.count 0 0 k f, rfl, rfl, rfl, hf, .PoissonProblem,
    fun _ A => A, 0, false, 1, _, _, _, rfl, hreg, hb, hd, rfl, ?_, rfl, rfl⟩
  intro S guess h1 h2
  change Solves m.count S.system (someSolution m.count S.system)
  rw [h1]
  exact someSolution_solves hu

/-- C104: on a generated rectangle held on at least one side the static problem and the Poisson problem
have a solution for all constant loads, so that the comparison of the meshes is not about nothing.
Missing: cells shorter than the tolerance of the search for nodes (C52). -/
theorem C104_solutions_partial [FloorSemiring K] [Inhabited (K × K)] {perimeter width height : K}
    (hp : 0 < perimeter) (hw : 0 < width) (hh : 0 < height) (htol : 1 / 10000 ≤ perimeter / 2)
    (hw' : 1 / 10000 ≤ width) (hh' : 1 / 10000 ≤ height) {nodes : List (K × K)}
    {elements : List (ℕ × ℕ × ℕ)} (hm : crossMesh perimeter width height = some (nodes, elements))
    (isContact : K × K → Bool) {isDirichlet : K × K → Bool} {held : Side → Bool}
    (hd : HoldsSides width height isDirichlet held) {s : Side} (hs : held s = true) (sqrt : K → K) :
    let m := supportedOf (identifyBoundaries centre nodes (elementRows elements) isContact isDirichlet)
    (∀ (mu lam : K) (c q : ℕ → K), 0 < mu → 0 ≤ lam → ∃ f u, StaticOn sqrt m mu lam c q f u) ∧
    ∀ k c q : K, k ≠ 0 → ∃ f T, PoissonOn sqrt m k c q f T := by
  obtain ⟨ρ, h⟩ := generated hp hw hh htol hw' hh' hm isContact isDirichlet
  generalize identifyBoundaries centre nodes (elementRows elements) isContact isDirichlet = M at h ⊢
  intro m
  have hne : ∃ p < m.count, m.supported p := by
    by_contra hno
    push Not at hno
    have hat := h.grid.at_grid (0, 0) ⟨by simp, by simp, rfl⟩
    have := h.held hw hh hd hs (List.getElem?_eq_some_iff.1 hat).1
    have none : ∀ {p : ℕ}, Held M.elements (fun q => q < M.nodes.length ∧ (supportedOf M).supported q) p →
        False := by
      intro p hp
      induction hp with
      | fixed p h => exact hno p h.1 h.2
      | triangle e he i j k hi hj hij hk h1 h2 ih1 ih2 => exact ih1
    exact none this
  refine ⟨fun mu lam c q h1 h2 => staticOn_exists (h.good hw hh) (fun p hp => h.held hw hh hd hs hp) hne sqrt
    h1 h2 c q, fun k c q hk => poissonOn_exists (h.good hw hh) (fun p hp => (h.held hw hh hd hs hp).joined) hne
    sqrt hk c q⟩

end

/-- All hypotheses of the theorem on rectangles together: a rectangle of two cells and one of eight, in
contact below, held on the left, under its weight and a pressure. -/
noncomputable example : ∃ nodes elements nodes' elements',
    crossMesh (1 : ℝ) 2 1 = some (nodes, elements) ∧ crossMesh (1 / 2 : ℝ) 2 1 = some (nodes', elements') ∧
    (let m := supportedOf (identifyBoundaries centre nodes (elementRows elements)
      (fun p => decide (p.2 = 0)) fun p => decide (p.1 = 0))
    let m' := supportedOf (identifyBoundaries centre nodes' (elementRows elements')
      (fun p => decide (p.2 = 0)) fun p => decide (p.1 = 0))
    ∃ f u f' u', StaticOn Real.sqrt m 2 1 (fun _ => -5) (fun _ => 7) f u ∧
      StaticOn Real.sqrt m' 2 1 (fun _ => -5) (fun _ => 7) f' u' ∧
      work (2 * m.count) f u ≤ work (2 * m'.count) f' u') := by
  obtain ⟨n, e, -, h, -⟩ := C52_mesh_partial (K := ℝ) (perimeter := 1) (width := 2)
    (height := 1) (by norm_num) (by norm_num) (by norm_num) (by norm_num) (by norm_num) (by norm_num)
  obtain ⟨n', e', -, h', -⟩ := C52_mesh_partial (K := ℝ) (perimeter := 1 / 2) (width := 2)
    (height := 1) (by norm_num) (by norm_num) (by norm_num) (by norm_num) (by norm_num) (by norm_num)
  have h2 := C104_doubles (K := ℝ) one_pos 2
  have h1 := C104_doubles (K := ℝ) one_pos 1
  rw [mul_one] at h1 h2
  have hc := (chooses_examples (K := ℝ) (width := 2) (height := 1) two_pos one_pos).1
  have hd := holds_left (K := ℝ) (width := 2) (height := 1) two_pos one_pos
  obtain ⟨f, u, hu⟩ := (C104_solutions_partial (by norm_num) (by norm_num) (by norm_num) (by norm_num)
    (by norm_num) (by norm_num) h (fun p => decide (p.2 = 0)) hd (s := .left) (by simp) Real.sqrt).1
    2 1 (fun _ => -5) (fun _ => 7) (by norm_num) (by norm_num)
  obtain ⟨f', u', hu'⟩ := (C104_solutions_partial (by norm_num) (by norm_num) (by norm_num) (by norm_num)
    (by norm_num) (by norm_num) h' (fun p => decide (p.2 = 0)) hd (s := .left) (by simp) Real.sqrt).1
    2 1 (fun _ => -5) (fun _ => 7) (by norm_num) (by norm_num)
  exact ⟨n, e, n', e', h, h', f, u, f', u', hu, hu',
    ((C104_rectangle_partial (by norm_num) (by norm_num) (by norm_num) (by norm_num) (by norm_num)
      (by norm_num) (by norm_num) (by norm_num) (by exact_mod_cast h2) (by exact_mod_cast h1) h h' hc hd
      (sqrt := Real.sqrt) (fun _ hx => ⟨Real.sqrt_nonneg _, Real.mul_self_sqrt hx⟩)).1 2 1 _ _ f f' u u'
      (by norm_num) (by norm_num) hu hu').2⟩

end Conmech
