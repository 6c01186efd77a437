import Mathlib.Algebra.BigOperators.Ring.Finset
import Mathlib.Algebra.BigOperators.Group.Finset.Sigma
import Mathlib.Algebra.Order.Ring.Int
import Mathlib.Tactic.Ring
import Verif.Spec.Operators
/-
C55 operator arithmetic.
-/
namespace Conmech

open Spec

variable {K : Type} [CommRing K]

/-- Where an operation puts its result: the memory that existed is unchanged and the result is not
there. -/
theorem operands_unchanged {s s' : OpState K} {p : OpStmt K} (hp : OutOfPlace p) (h : s.step p = .ok s') :
    s.memory.next ≤ s'.memory.next ∧
      ∀ b < s.memory.next, s'.memory.cells b = s.memory.cells b := by
  have put : ∀ {t : ℕ} {r : OpResult K}, s.put t r = .ok s' →
      ∃ v, r = .ok (s'.memory, v) := by
    intro t r hr
    match r, hr with
    | .ok (m, v), hr =>
      simp only [OpState.put, Except.ok.injEq] at hr
      exact ⟨v, by rw [← hr]⟩
    | .error e, hr => simp [OpState.put] at hr
  have same : ∀ {v w : OpValue K} {m : Memory K},
      (Except.ok (s.memory, v) : OpResult K) = .ok (m, w) → s.memory.next ≤ m.next ∧
        ∀ b < s.memory.next, m.cells b = s.memory.cells b := by
    intro v w m h
    simp only [Except.ok.injEq, Prod.mk.injEq] at h
    rw [← h.1]
    exact ⟨le_refl _, fun _ _ => rfl⟩
  have fresh : ∀ {v w : OpValue K} {m : Memory K} {rows cols : ℕ} {f : ℕ → ℕ → K},
      (Except.ok ((s.memory.alloc rows cols f).1, v) : OpResult K) = .ok (m, w) →
        s.memory.next ≤ m.next ∧ ∀ b < s.memory.next, m.cells b = s.memory.cells b := by
    intro v w m rows cols f h
    simp only [Except.ok.injEq, Prod.mk.injEq] at h
    rw [← h.1]
    refine ⟨Nat.le_succ _, fun b hb => ?_⟩
    simp [Memory.alloc, hb.ne]
  have add : ∀ {c : OpClass} {r : ArrayRef} {y w : OpValue K} {m : Memory K},
      opAdd s.memory c r y = .ok (m, w) → s.memory.next ≤ m.next ∧
        ∀ b < s.memory.next, m.cells b = s.memory.cells b := by
    intro c r y w m h
    unfold opAdd at h
    cases hf : addOperand s.memory c r y with
    | error e => rw [hf] at h; cases h
    | ok f => rw [hf] at h; exact fresh (rows := r.rows) (cols := r.cols) h
  have mul : ∀ {c : OpClass} {r : ArrayRef} {y w : OpValue K} {m : Memory K},
      opMul s.memory c r y = .ok (m, w) → s.memory.next ≤ m.next ∧
        ∀ b < s.memory.next, m.cells b = s.memory.cells b := by
    intro c r y w m h
    unfold opMul at h
    cases hf : operand s.memory r y with
    | error e => rw [hf] at h; cases h
    | ok f => rw [hf] at h; exact fresh (rows := r.rows) (cols := r.cols) h
  cases p with
  | assign t x => simp only [OpState.step] at h; obtain ⟨v, hv⟩ := put h; exact same hv
  | literal t k => simp only [OpState.step] at h; obtain ⟨v, hv⟩ := put h; exact same hv
  | make t c rows cols f =>
    simp only [OpState.step] at h
    obtain ⟨v, hv⟩ := put h
    exact fresh hv
  | add t x y =>
    obtain ⟨v, hv⟩ := put h
    cases hx : s.vars x <;> cases hy : s.vars y <;> rw [hx, hy] at hv <;>
      first
      | exact add hv
      | exact same hv
      | cases hv
  | sub t x y =>
    obtain ⟨v, hv⟩ := put h
    cases hx : s.vars x <;> cases hy : s.vars y <;> rw [hx, hy] at hv <;>
      first
      | exact same hv
      | cases hv
  | mul t x y =>
    obtain ⟨v, hv⟩ := put h
    cases hx : s.vars x <;> cases hy : s.vars y <;> rw [hx, hy] at hv <;>
      first
      | exact mul hv
      | exact same hv
      | cases hv
  | matmul t x y =>
    obtain ⟨v, hv⟩ := put h
    have mat : ∀ {c : OpClass} {r q : ArrayRef} {y w : OpValue K} {m : Memory K},
        matOperand y = .ok q → pyMatmul s.memory (.operator c r) y = .ok (m, w) →
        s.memory.next ≤ m.next ∧ ∀ b < s.memory.next, m.cells b = s.memory.cells b := by
      intro c r q y w m hq h
      simp only [pyMatmul, hq] at h
      by_cases hs : r.cols = q.rows
      · simp only [bind, Except.bind, hs, if_true] at h
        exact fresh (rows := r.rows) (cols := q.cols) h
      · simp only [bind, Except.bind, hs, if_false] at h
        cases h
    cases hx : s.vars x <;> cases hy : s.vars y <;> rw [hx, hy] at hv <;>
      first
      | exact mat rfl hv
      | cases hv
  | copy t x =>
    obtain ⟨v, hv⟩ := put h
    cases hx : s.vars x with
    | array r => rw [hx] at hv; exact fresh (rows := r.rows) (cols := r.cols) hv
    | operator c r => rw [hx] at hv; exact fresh (rows := r.rows) (cols := r.cols) hv
    | none => rw [hx] at hv; cases hv
    | number k => rw [hx] at hv; cases hv
  | block t x =>
    obtain ⟨v, hv⟩ := put h
    cases hx : s.vars x with
    | operator c r => rw [hx] at hv; cases c <;> first | exact same hv | cases hv
    | _ => rw [hx] at hv; cases hv
  | iadd x y => exact absurd hp id
  | imul x y => exact absurd hp id
  | imatmul x y => exact absurd hp id

/-- A statement changes only its variable. -/
theorem step_vars {s s' : OpState K} {p : OpStmt K} (h : s.step p = .ok s') {x : ℕ}
    (hx : ¬ Assigns x p) : s'.vars x = s.vars x := by
  have put : ∀ {t : ℕ} {r : OpResult K}, s.put t r = .ok s' → t ≠ x → s'.vars x = s.vars x := by
    intro t r hr ht
    match r, hr with
    | .ok (m, v), hr =>
      simp only [OpState.put, Except.ok.injEq] at hr
      rw [← hr]
      simp [ht.symm]
    | .error e, hr => simp [OpState.put] at hr
  cases p <;> simp only [OpState.step] at h <;> exact put h hx

/-- C55: an operator held by a variable is the same after any program without in-place operators that
does not assign to the variable. -/
theorem C55_operands {s s' : OpState K} {program : List (OpStmt K)} (hp : ∀ p ∈ program, OutOfPlace p)
    (h : s.run program = .ok s') {x : ℕ} (hx : ∀ p ∈ program, ¬ Assigns x p) {c : OpClass}
    {rows cols : ℕ} {A : ℕ → ℕ → K} (ho : IsOperator s.memory (s.vars x) c rows cols A) :
    IsOperator s'.memory (s'.vars x) c rows cols A := by
  induction program generalizing s with
  | nil =>
    simp only [OpState.run, Except.ok.injEq] at h
    rwa [← h]
  | cons p rest ih =>
    simp only [OpState.run] at h
    cases hs : s.step p with
    | error e => rw [hs] at h; cases h
    | ok t =>
      rw [hs] at h
      refine ih (fun q hq => hp q (by simp [hq])) h (fun q hq => hx q (by simp [hq])) ?_
      obtain ⟨h1, h2⟩ := operands_unchanged (hp p (by simp)) hs
      obtain ⟨b, g1, g2, g3⟩ := ho
      refine ⟨b, by rw [step_vars hs (hx p (by simp)), g1], lt_of_lt_of_le g2 h1, ?_⟩
      intro i hi j hj
      rw [h2 b g2]
      exact g3 i hi j hj

/-- C55: the sum of two operators of the same class. It is an operator of its own, so that the operands
stay as they are. -/
theorem C55_add {s : OpState K} {x y : ℕ} {c : OpClass} {rows cols : ℕ} {A B : ℕ → ℕ → K}
    (hx : IsOperator s.memory (s.vars x) c rows cols A)
    (hy : IsOperator s.memory (s.vars y) c rows cols B) (t : ℕ) :
    ∃ s', s.step (.add t x y) = .ok s' ∧
      IsOperator s'.memory (s'.vars t) c rows cols (fun i j => A i j + B i j) ∧
      ∀ v, ∀ r, s'.vars t = .operator c r → ∀ i < rows,
        arrayVec s'.memory r v i = image A cols v i + image B cols v i := by
  obtain ⟨a, hx1, hx2, hx3⟩ := hx
  obtain ⟨b, hy1, hy2, hy3⟩ := hy
  have key : s.step (.add t x y) = .ok
      { vars := fun z => if z = t then .operator c ⟨s.memory.next, rows, cols⟩ else s.vars z
        memory := (s.memory.alloc rows cols fun i j =>
          s.memory.cells a i j + s.memory.cells b i j).1 } := by
    simp only [OpState.step, hx1, hy1, pyAdd, opAdd, addOperand, operand, if_true, and_self]
    rfl
  have hent : ∀ i < rows, ∀ j < cols, s.memory.cells a i j + s.memory.cells b i j =
      A i j + B i j := fun i hi j hj => by rw [hx3 i hi j hj, hy3 i hi j hj]
  refine ⟨_, key, ⟨s.memory.next, by simp, by simp [Memory.alloc], ?_⟩, ?_⟩
  · intro i hi j hj
    simp only [Memory.alloc, if_true]
    exact hent i hi j hj
  · intro v r hr i hi
    simp only [if_true, OpValue.operator.injEq, true_and] at hr
    subst hr
    simp only [arrayVec, image, Memory.entry, Memory.alloc, if_true]
    rw [← Finset.sum_add_distrib]
    refine Finset.sum_congr rfl fun j hj => ?_
    rw [hent i hi j (Finset.mem_range.mp hj)]
    ring

/-- C55: operators of different dimensions are not added. -/
theorem C55_dimensions {s : OpState K} {x y : ℕ} {c d : OpClass} {rows cols rows' cols' : ℕ}
    {A B : ℕ → ℕ → K} (hx : IsOperator s.memory (s.vars x) c rows cols A)
    (hy : IsOperator s.memory (s.vars y) d rows' cols' B) (hcd : c ≠ d) (t : ℕ) :
    s.step (.add t x y) = .error .assertion ∧ s.step (.iadd x y) = .error .assertion := by
  obtain ⟨a, hx1, -, -⟩ := hx
  obtain ⟨b, hy1, -, -⟩ := hy
  have hdim : c.dimension ≠ d.dimension := by
    revert hcd
    cases c <;> cases d <;> decide
  constructor
  · simp only [OpState.step, hx1, hy1, pyAdd, opAdd, addOperand, hdim, if_false]
    rfl
  · simp only [OpState.step, hx1, hy1, pyIadd, addOperand, hdim, if_false]
    rfl

/-- C55: the product with a number, on either side. -/
theorem C55_scale {s : OpState K} {x y : ℕ} {c : OpClass} {rows cols : ℕ} {A : ℕ → ℕ → K} {k : K}
    (hx : IsOperator s.memory (s.vars x) c rows cols A) (hy : s.vars y = .number k) (t : ℕ) :
    ∃ s', s.step (.mul t x y) = .ok s' ∧ s.step (.mul t y x) = .ok s' ∧
      IsOperator s'.memory (s'.vars t) c rows cols (fun i j => k * A i j) ∧
      ∀ v, ∀ r, s'.vars t = .operator c r → ∀ i < rows,
        arrayVec s'.memory r v i = k * image A cols v i := by
  obtain ⟨a, hx1, hx2, hx3⟩ := hx
  have key : ∀ u v, (s.vars u = .operator c ⟨a, rows, cols⟩ ∧ s.vars v = .number k) ∨
      (s.vars v = .operator c ⟨a, rows, cols⟩ ∧ s.vars u = .number k) →
      s.step (.mul t u v) = .ok
      { vars := fun z => if z = t then .operator c ⟨s.memory.next, rows, cols⟩ else s.vars z
        memory := (s.memory.alloc rows cols fun i j => s.memory.cells a i j * k).1 } := by
    rintro u v (⟨h1, h2⟩ | ⟨h1, h2⟩) <;>
    · simp only [OpState.step, h1, h2, pyMul, opMul, operand]
      rfl
  refine ⟨_, key x y (.inl ⟨hx1, hy⟩), key y x (.inr ⟨hx1, hy⟩),
    ⟨s.memory.next, by simp, by simp [Memory.alloc], ?_⟩, ?_⟩
  · intro i hi j hj
    simp only [Memory.alloc, if_true]
    rw [hx3 i hi j hj, mul_comm]
  · intro v r hr i hi
    simp only [if_true, OpValue.operator.injEq, true_and] at hr
    subst hr
    simp only [arrayVec, image, Memory.entry, Memory.alloc, if_true]
    rw [Finset.mul_sum]
    refine Finset.sum_congr rfl fun j hj => ?_
    rw [hx3 i hi j (Finset.mem_range.mp hj)]
    ring

/-- C55: the product with an array of the same shape is entry by entry, as it is for arrays; in place
too. -/
theorem C55_entrywise {s : OpState K} {x y z : ℕ} {c : OpClass} {rows cols b : ℕ} {A : ℕ → ℕ → K}
    (hx : IsOperator s.memory (s.vars x) c rows cols A) (hy : s.vars y = .array ⟨b, rows, cols⟩)
    (hz : s.vars z = s.vars x) (hzx : z ≠ x) (t : ℕ) :
    (∃ s', s.step (.mul t x y) = .ok s' ∧
      IsOperator s'.memory (s'.vars t) c rows cols (fun i j => A i j * s.memory.cells b i j)) ∧
    ∃ s', s.step (.imul x y) = .ok s' ∧
      IsOperator s'.memory (s'.vars z) c rows cols (fun i j => A i j * s.memory.cells b i j) := by
  obtain ⟨a, hx1, hx2, hx3⟩ := hx
  rw [hx1] at hz
  have h1 : s.step (.mul t x y) = .ok
      { vars := fun z => if z = t then .operator c ⟨s.memory.next, rows, cols⟩ else s.vars z
        memory := (s.memory.alloc rows cols fun i j =>
          s.memory.cells a i j * s.memory.cells b i j).1 } := by
    simp only [OpState.step, hx1, hy, pyMul, opMul, operand, if_true, and_self]
    rfl
  have h2 : s.step (.imul x y) = .ok
      { vars := fun w => if w = x then .none else s.vars w
        memory := s.memory.store ⟨a, rows, cols⟩ fun i j =>
          s.memory.cells a i j * s.memory.cells b i j } := by
    simp only [OpState.step, hx1, hy, pyImul, operand, if_true, and_self]
    rfl
  refine ⟨⟨_, h1, s.memory.next, by simp, by simp [Memory.alloc], fun i hi j hj => ?_⟩,
    ⟨_, h2, a, by simp [hzx, hz], by simpa [Memory.store] using hx2, fun i hi j hj => ?_⟩⟩
  · simp only [Memory.alloc, if_true]
    rw [hx3 i hi j hj]
  · simp [Memory.store, hi, hj, hx3 i hi j hj]

-- an operator of one row and two columns that two variables hold, and an array of that shape
example : let s : OpState ℚ := ⟨fun v => if v ≤ 1 then .operator .SM1 ⟨0, 1, 2⟩ else .array ⟨1, 1, 2⟩,
      ⟨2, fun b _ j => if b = 0 then j + 2 else j + 3⟩⟩
    IsOperator s.memory (s.vars 0) .SM1 1 2 (fun _ j => j + 2) ∧ s.vars 2 = .array ⟨1, 1, 2⟩ ∧
      s.vars 1 = s.vars 0 := by
  exact ⟨⟨0, by simp, by simp, fun _ _ _ _ => by simp⟩, by simp, by simp⟩

/-- C55: numbers are added and multiplied as numbers, in place too. -/
theorem C55_numbers {s : OpState K} {x y : ℕ} {k l : K} (hx : s.vars x = .number k)
    (hy : s.vars y = .number l) (t : ℕ) :
    (∃ s', s.step (.add t x y) = .ok s' ∧ s'.vars t = .number (k + l) ∧ s'.memory = s.memory) ∧
    (∃ s', s.step (.mul t x y) = .ok s' ∧ s'.vars t = .number (k * l) ∧ s'.memory = s.memory) ∧
    (∃ s', s.step (.iadd x y) = .ok s' ∧ s'.vars x = .number (k + l) ∧ s'.memory = s.memory) ∧
    ∃ s', s.step (.imul x y) = .ok s' ∧ s'.vars x = .number (k * l) ∧ s'.memory = s.memory := by
  simp only [OpState.step, hx, hy, pyAdd, pyMul, pyIadd, pyImul, OpState.put]
  exact ⟨⟨_, rfl, by simp, rfl⟩, ⟨_, rfl, by simp, rfl⟩, ⟨_, rfl, by simp, rfl⟩,
    ⟨_, rfl, by simp, rfl⟩⟩

/-- C55: the sum with a number, on either side: it is added to all entries. -/
theorem C55_shift {s : OpState K} {x y : ℕ} {c : OpClass} {rows cols : ℕ} {A : ℕ → ℕ → K} {k : K}
    (hx : IsOperator s.memory (s.vars x) c rows cols A) (hy : s.vars y = .number k) (t : ℕ) :
    ∃ s', s.step (.add t x y) = .ok s' ∧ s.step (.add t y x) = .ok s' ∧
      IsOperator s'.memory (s'.vars t) c rows cols (fun i j => A i j + k) := by
  obtain ⟨a, hx1, hx2, hx3⟩ := hx
  have key : ∀ u v, (s.vars u = .operator c ⟨a, rows, cols⟩ ∧ s.vars v = .number k) ∨
      (s.vars v = .operator c ⟨a, rows, cols⟩ ∧ s.vars u = .number k) →
      s.step (.add t u v) = .ok
      { vars := fun z => if z = t then .operator c ⟨s.memory.next, rows, cols⟩ else s.vars z
        memory := (s.memory.alloc rows cols fun i j => s.memory.cells a i j + k).1 } := by
    rintro u v (⟨h1, h2⟩ | ⟨h1, h2⟩) <;>
    · simp only [OpState.step, h1, h2, pyAdd, opAdd, addOperand, operand]
      rfl
  refine ⟨_, key x y (.inl ⟨hx1, hy⟩), key y x (.inr ⟨hx1, hy⟩),
    ⟨s.memory.next, by simp, by simp [Memory.alloc], ?_⟩⟩
  intro i hi j hj
  simp only [Memory.alloc, if_true]
  rw [hx3 i hi j hj]

/-- C55: a copy is the same operator in memory of its own: it keeps its entries whatever is stored in
the original. -/
theorem C55_copy {s : OpState K} {x : ℕ} {c : OpClass} {rows cols : ℕ} {A : ℕ → ℕ → K}
    (hx : IsOperator s.memory (s.vars x) c rows cols A) (t : ℕ) :
    ∃ s', s.step (.copy t x) = .ok s' ∧ IsOperator s'.memory (s'.vars t) c rows cols A ∧
      ∀ r, s.vars x = .operator c r → ∀ f,
        IsOperator (s'.memory.store r f) (s'.vars t) c rows cols A := by
  obtain ⟨a, hx1, hx2, hx3⟩ := hx
  have key : s.step (.copy t x) = .ok
      { vars := fun z => if z = t then .operator c ⟨s.memory.next, rows, cols⟩ else s.vars z
        memory := (s.memory.alloc rows cols (s.memory.cells a)).1 } := by
    simp only [OpState.step, hx1, pyCopy]
    rfl
  refine ⟨_, key, ⟨s.memory.next, by simp, by simp [Memory.alloc], ?_⟩, ?_⟩
  · intro i hi j hj
    simp only [Memory.alloc, if_true]
    exact hx3 i hi j hj
  · intro r hr f
    rw [hx1] at hr
    simp only [OpValue.operator.injEq, true_and] at hr
    subst hr
    refine ⟨s.memory.next, by simp, by simp [Memory.alloc, Memory.store], ?_⟩
    intro i hi j hj
    simp only [Memory.alloc, Memory.store, if_true]
    rw [if_neg (by simp; omega)]
    exact hx3 i hi j hj

/-- C55: the product of two operators acts as the composition. -/
theorem C55_matmul {s : OpState K} {x y : ℕ} {c d : OpClass} {rows n cols : ℕ} {A B : ℕ → ℕ → K}
    (hx : IsOperator s.memory (s.vars x) c rows n A)
    (hy : IsOperator s.memory (s.vars y) d n cols B) (t : ℕ) :
    ∃ s' r, s.step (.matmul t x y) = .ok s' ∧ s'.vars t = .array r ∧ r.rows = rows ∧ r.cols = cols ∧
      ∀ v, ∀ i < rows, arrayVec s'.memory r v i = image A n (image B cols v) i := by
  obtain ⟨a, hx1, hx2, hx3⟩ := hx
  obtain ⟨b, hy1, hy2, hy3⟩ := hy
  have key : s.step (.matmul t x y) = .ok
      { vars := fun z => if z = t then .array ⟨s.memory.next, rows, cols⟩ else s.vars z
        memory := (s.memory.alloc rows cols (matProduct s.memory ⟨a, rows, n⟩ ⟨b, n, cols⟩)).1 } := by
    simp only [OpState.step, hx1, hy1, pyMatmul, matOperand]
    simp only [bind, Except.bind, if_true]
    rfl
  refine ⟨_, ⟨s.memory.next, rows, cols⟩, key, by simp, rfl, rfl, ?_⟩
  intro v i hi
  simp only [arrayVec, image, Memory.entry, Memory.alloc, if_true, matProduct]
  simp only [Finset.sum_mul, Finset.mul_sum]
  rw [Finset.sum_comm]
  refine Finset.sum_congr rfl fun k hk => Finset.sum_congr rfl fun j hj => ?_
  rw [hx3 i hi k (Finset.mem_range.mp hk), hy3 k (Finset.mem_range.mp hk) j (Finset.mem_range.mp hj)]
  ring

/-- C55: a difference can be written as a sum with a multiple. Missing for the full property: there is
no subtraction, see `C55_difference_wrong`. -/
theorem C55_difference_partial {s : OpState K} {x y u : ℕ} {c : OpClass} {rows cols : ℕ}
    {A B : ℕ → ℕ → K} (hx : IsOperator s.memory (s.vars x) c rows cols A)
    (hy : IsOperator s.memory (s.vars y) c rows cols B) (hu : s.vars u = .number (-1)) {t : ℕ}
    (htx : t ≠ x) :
    ∃ s', s.run [.mul t u y, .add t x t] = .ok s' ∧
      IsOperator s'.memory (s'.vars t) c rows cols (fun i j => A i j - B i j) := by
  obtain ⟨s1, -, h1, h2, -⟩ := C55_scale hy hu t
  have hp : OutOfPlace (OpStmt.mul t u y : OpStmt K) := trivial
  have hx' : IsOperator s1.memory (s1.vars x) c rows cols A :=
    C55_operands (program := [.mul t u y]) (by simp [OutOfPlace])
      (by simp only [OpState.run, h1]; rfl) (by simpa [Assigns] using htx) hx
  obtain ⟨s2, h3, h4, -⟩ := C55_add hx' h2 t
  refine ⟨s2, by simp only [OpState.run, h1, h3, bind, Except.bind], ?_⟩
  obtain ⟨b, g1, g2, g3⟩ := h4
  refine ⟨b, g1, g2, fun i hi j hj => ?_⟩
  rw [g3 i hi j hj]
  ring

/-- C55: the difference of two operators is an error. -/
theorem C55_difference_wrong {s : OpState K} {x y : ℕ} {c d : OpClass} {rows cols rows' cols' : ℕ}
    {A B : ℕ → ℕ → K} (hx : IsOperator s.memory (s.vars x) c rows cols A)
    (_hy : IsOperator s.memory (s.vars y) d rows' cols' B) (t : ℕ) :
    s.step (.sub t x y) = .error .type := by
  obtain ⟨a, hx1, -, -⟩ := hx
  simp only [OpState.step, hx1, pySub]
  rfl

/-- C55: what in-place operators do to the operator. `z` is another variable that holds it. Missing for
the full property: the variable on the left side does not hold the operator any more, see
`C55_inplace_wrong`. -/
theorem C55_inplace_partial {s : OpState K} {x y z u : ℕ} {c : OpClass} {rows cols : ℕ}
    {A B : ℕ → ℕ → K} {k : K} (hx : IsOperator s.memory (s.vars x) c rows cols A)
    (hz : s.vars z = s.vars x) (hzx : z ≠ x)
    (hy : IsOperator s.memory (s.vars y) c rows cols B) (hu : s.vars u = .number k) :
    (∃ s', s.step (.iadd x y) = .ok s' ∧
      IsOperator s'.memory (s'.vars z) c rows cols (fun i j => A i j + B i j)) ∧
    (∃ s', s.step (.imul x u) = .ok s' ∧
      IsOperator s'.memory (s'.vars z) c rows cols (fun i j => k * A i j)) ∧
    (rows = cols → ∃ s', s.step (.imatmul x y) = .ok s' ∧
      IsOperator s'.memory (s'.vars z) c rows cols
        (fun i j => ∑ l ∈ Finset.range cols, A i l * B l j)) := by
  obtain ⟨a, hx1, hx2, hx3⟩ := hx
  obtain ⟨b, hy1, hy2, hy3⟩ := hy
  rw [hx1] at hz
  have h1 : s.step (.iadd x y) = .ok
      { vars := fun w => if w = x then .none else s.vars w
        memory := s.memory.store ⟨a, rows, cols⟩ fun i j =>
          s.memory.cells a i j + s.memory.cells b i j } := by
    simp only [OpState.step, hx1, hy1, pyIadd, addOperand, operand, if_true, and_self]
    rfl
  have h2 : s.step (.imul x u) = .ok
      { vars := fun w => if w = x then .none else s.vars w
        memory := s.memory.store ⟨a, rows, cols⟩ fun i j => s.memory.cells a i j * k } := by
    simp only [OpState.step, hx1, hu, pyImul, operand]
    rfl
  refine ⟨⟨_, h1, ?_⟩, ⟨_, h2, ?_⟩, fun hn =>
    ⟨{ vars := fun w => if w = x then .none else s.vars w
       memory := s.memory.store ⟨a, rows, cols⟩
        (matProduct s.memory ⟨a, rows, cols⟩ ⟨b, rows, cols⟩) }, ?_, ?_⟩⟩
  · refine ⟨a, by simp [hzx, hz], by simpa [Memory.store] using hx2, fun i hi j hj => ?_⟩
    simp [Memory.store, hi, hj, Memory.entry, hx3 i hi j hj, hy3 i hi j hj]
  · refine ⟨a, by simp [hzx, hz], by simpa [Memory.store] using hx2, fun i hi j hj => ?_⟩
    simp [Memory.store, hi, hj, Memory.entry, hx3 i hi j hj, mul_comm]
  · simp only [OpState.step, hx1, hy1, pyImatmul, matOperand]
    simp only [bind, Except.bind, hn, and_self, if_true]
    rfl
  · refine ⟨a, by simp [hzx, hz], by simpa [Memory.store] using hx2, fun i hi j hj => ?_⟩
    simp only [Memory.store, hi, hj, and_self, if_true, matProduct, Memory.entry]
    refine Finset.sum_congr rfl fun l hl => ?_
    have hl' := Finset.mem_range.mp hl
    rw [hx3 i hi l hl', hy3 l (hn ▸ hl') j hj]

/-- C55: an in-place operator changes no operator in other memory. -/
theorem C55_inplace_others {s s' : OpState K} {x y z : ℕ} {c d : OpClass} {r q : ArrayRef}
    (hx : s.vars x = .operator c r) (hz : s.vars z = .operator d q) (hne : q.buffer ≠ r.buffer)
    (h : s.step (.iadd x y) = .ok s' ∨ s.step (.imul x y) = .ok s' ∨
      s.step (.imatmul x y) = .ok s') :
    s'.vars z = .operator d q ∧ ∀ i j, s'.memory.entry q i j = s.memory.entry q i j := by
  have hzx : z ≠ x := by
    rintro rfl
    rw [hx, OpValue.operator.injEq] at hz
    exact hne (by rw [hz.2])
  have key : ∀ f : ℕ → ℕ → K, s.put x (.ok (s.memory.store r f, .none)) = .ok s' →
      s'.vars z = .operator d q ∧ ∀ i j, s'.memory.entry q i j = s.memory.entry q i j := by
    intro f hf
    simp only [OpState.put, Except.ok.injEq] at hf
    rw [← hf]
    refine ⟨by simp [hzx, hz], fun i j => ?_⟩
    simp [Memory.entry, Memory.store, hne]
  rcases h with h | h | h
  · simp only [OpState.step, hx, pyIadd] at h
    cases hf : addOperand s.memory c r (s.vars y) with
    | error e => rw [hf] at h; cases h
    | ok f => rw [hf] at h; exact key _ h
  · simp only [OpState.step, hx, pyImul] at h
    cases hf : operand s.memory r (s.vars y) with
    | error e => rw [hf] at h; cases h
    | ok f => rw [hf] at h; exact key _ h
  · simp only [OpState.step, hx, pyImatmul] at h
    cases hf : matOperand (s.vars y) with
    | error e => rw [hf] at h; cases h
    | ok p =>
      rw [hf] at h
      simp only [bind, Except.bind] at h
      by_cases hs : r.cols = p.rows ∧ p.cols = r.cols
      · rw [if_pos hs] at h; exact key _ h
      · rw [if_neg hs] at h; cases h

/-- C55: after an in-place operator the variable holds nothing. -/
theorem C55_inplace_wrong {s s' : OpState K} {x y : ℕ} {c : OpClass} {r : ArrayRef}
    (hx : s.vars x = .operator c r)
    (h : s.step (.iadd x y) = .ok s' ∨ s.step (.imul x y) = .ok s' ∨
      s.step (.imatmul x y) = .ok s') : s'.vars x = .none := by
  have key : ∀ f : ℕ → ℕ → K, s.put x (.ok (s.memory.store r f, .none)) = .ok s' →
      s'.vars x = .none := by
    intro f hf
    simp only [OpState.put, Except.ok.injEq] at hf
    rw [← hf]
    simp
  rcases h with h | h | h
  · simp only [OpState.step, hx, pyIadd] at h
    cases hf : addOperand s.memory c r (s.vars y) with
    | error e => rw [hf] at h; cases h
    | ok f => rw [hf] at h; exact key _ h
  · simp only [OpState.step, hx, pyImul] at h
    cases hf : operand s.memory r (s.vars y) with
    | error e => rw [hf] at h; cases h
    | ok f => rw [hf] at h; exact key _ h
  · simp only [OpState.step, hx, pyImatmul] at h
    cases hf : matOperand (s.vars y) with
    | error e => rw [hf] at h; cases h
    | ok p =>
      rw [hf] at h
      simp only [bind, Except.bind] at h
      by_cases hs : r.cols = p.rows ∧ p.cols = r.cols
      · rw [if_pos hs] at h; exact key _ h
      · rw [if_neg hs] at h; cases h

/-- C55: if the variable on the left holds a number or nothing, an in-place operator does what the plain
operator followed by an assignment does. -/
theorem C55_inplace_plain {s : OpState K} {x : ℕ} (y : ℕ)
    (hx : s.vars x = .none ∨ ∃ k, s.vars x = .number k) :
    s.step (.iadd x y) = s.step (.add x x y) ∧ s.step (.imul x y) = s.step (.mul x x y) ∧
      s.step (.imatmul x y) = s.step (.matmul x x y) := by
  simp only [OpState.step]
  rcases hx with h | ⟨k, h⟩ <;> rw [h] <;> exact ⟨rfl, rfl, rfl⟩

example : (⟨fun _ => .number 2, ⟨0, fun _ _ _ => 0⟩⟩ : OpState ℚ).vars 0 = .none ∨
    ∃ k, (⟨fun _ => .number 2, ⟨0, fun _ _ _ => 0⟩⟩ : OpState ℚ).vars 0 = .number k :=
  Or.inr ⟨2, rfl⟩

/-- C55: the block of an operator for one component: it acts on vectors as the operator does on vectors
with the other components zero, and scaling it leaves the operator unchanged. -/
theorem C55_block {s : OpState K} {x y : ℕ} {n : ℕ} {A : ℕ → ℕ → K} {k : K}
    {c : OpClass} {d : ℕ} (hc : c = .SM2 ∧ d = 2 ∨ c = .SM3 ∧ d = 3)
    (hx : IsOperator s.memory (s.vars x) c (d * n) (d * n) A) (hy : s.vars y = .number k) {t : ℕ}
    (htx : t ≠ x) (hty : t ≠ y) :
    ∃ s', s.run [.block t x, .mul t y t] = .ok s' ∧
      IsOperator s'.memory (s'.vars t) .SM1 n n (fun i j => k * A i j) ∧
      IsOperator s'.memory (s'.vars x) c (d * n) (d * n) A := by
  have h1 : ∃ s1, s.step (.block t x) = .ok s1 ∧ IsOperator s1.memory (s1.vars t) .SM1 n n A ∧
      s1.vars y = .number k := by
    obtain ⟨a, hx1, hx2, hx3⟩ := hx
    have hdn : (d * n) / d = n := by
      rcases hc with ⟨-, rfl⟩ | ⟨-, rfl⟩ <;> omega
    have hle : n ≤ d * n := by rcases hc with ⟨-, rfl⟩ | ⟨-, rfl⟩ <;> omega
    have key : s.step (.block t x) = .ok
        { vars := fun z => if z = t then .operator .SM1 ⟨a, n, n⟩ else s.vars z
          memory := s.memory } := by
      rcases hc with ⟨rfl, rfl⟩ | ⟨rfl, rfl⟩ <;>
      · simp only [OpState.step, hx1, pyBlock, hdn]
        rfl
    refine ⟨_, key, ⟨a, by simp, hx2, fun i hi j hj => hx3 i (by omega) j (by omega)⟩, ?_⟩
    simp [hty.symm, hy]
  obtain ⟨s1, g1, g2, g3⟩ := h1
  obtain ⟨s2, -, g4, g5, -⟩ := C55_scale g2 g3 t
  have hrun : s.run [.block t x, .mul t y t] = .ok s2 := by
    simp only [OpState.run, g1, g4, bind, Except.bind]
  refine ⟨s2, hrun, g5, C55_operands (by simp [OutOfPlace]) hrun ?_ hx⟩
  simpa [Assigns] using htx

/-- Two operators, a number and a second name for the first operator. -/
def exampleOperators : OpState ℤ where
  vars := fun x =>
    if x = 0 then .operator .SM2 ⟨0, 4, 4⟩ else if x = 1 then .operator .SM2 ⟨1, 4, 4⟩
    else if x = 2 then .number (-1) else if x = 3 then .operator .SM2 ⟨0, 4, 4⟩ else .none
  memory := { next := 2, cells := fun b i j => if b = 0 then i + j else i * j }

/-- The hypotheses can be satisfied. -/
example : IsOperator exampleOperators.memory (exampleOperators.vars 0) .SM2 (2 * 2) (2 * 2) (fun i j => i + j) ∧
    IsOperator exampleOperators.memory (exampleOperators.vars 1) .SM2 4 4 (fun i j => i * j) ∧
    exampleOperators.vars 2 = .number (-1) ∧ exampleOperators.vars 3 = exampleOperators.vars 0 :=
  ⟨⟨0, rfl, by decide, fun _ _ _ _ => rfl⟩, ⟨1, rfl, by decide, fun _ _ _ _ => rfl⟩, rfl, rfl⟩

/-- An operator of another class. -/
example : ∃ s, exampleOperators.step (.block 4 0) = .ok s ∧ s.vars 4 = .operator .SM1 ⟨0, 2, 2⟩ :=
  ⟨_, rfl, rfl⟩

end Conmech
