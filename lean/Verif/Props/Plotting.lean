import Mathlib.Tactic.Linarith
import Mathlib.Tactic.Ring
import Mathlib.Tactic.NormNum
import Mathlib.Tactic.FinCases
import Mathlib.Tactic.IntervalCases
import Mathlib.Tactic.Push
import Mathlib.Algebra.Group.Nat.Even
import Mathlib.Data.List.Nodup
import Mathlib.Data.Fintype.Basic
import Mathlib.Algebra.Order.Ring.Rat
import Verif.Model.Plotting
/-!
C81 plots of limit points, C82 drawings of bodies, C83 plots of membranes.
-/
namespace Conmech

section C81

variable {K : Type} [Field K]

/-- The points of a product: a point for each zero of each time. -/
def Spec.recorded (data : List (K × List K)) : List (K × K) :=
  data.flatMap fun e => e.2.map fun z => (e.1, z)

/-- The times `data` begins with have exactly 1000 points. -/
def Spec.HasThousand (data : List (K × List K)) : Prop :=
  ∃ a b, data = a ++ b ∧ (Spec.recorded a).length = 1000

open Spec

/-- What is known after the points `pts` have been put into the buffer. -/
structure LimitInv (p : LimitPlot K) (pts : List (K × K)) (chunks : List (List (K × K)))
    (rest : List (K × K)) : Prop where
  split : pts = chunks.flatten ++ rest
  full : ∀ c ∈ chunks, c.length = 1000
  shown : p.scatters = chunks.map fun c => c ++ List.replicate 100 (0, 0)
  size : p.size = rest.length
  room : p.buff.length = 1100
  held : p.buff.take rest.length = rest
  zeros : p.buff.drop (max 1000 rest.length) = List.replicate (1100 - max 1000 rest.length) (0, 0)
  labels : p.labels = (List.range p.scatters.length).map fun i => i == 0

theorem isEmpty_labels (n : ℕ) :
    ((List.range n).map fun i => i == 0).isEmpty = (n == 0) := by
  cases n with
  | zero => rfl
  | succ n => rw [List.range_succ]; simp

theorem limitInv_start : LimitInv (LimitPlot.start : LimitPlot K) [] [] [] where
  split := rfl
  full := fun c hc => nomatch hc
  shown := rfl
  size := rfl
  room := List.length_replicate
  held := rfl
  zeros := by
    simp only [LimitPlot.start, List.length_nil, List.drop_replicate]
  labels := rfl

theorem limitInv_write {p q : LimitPlot K} {pts chunks rest} (h : LimitInv p pts chunks rest)
    {t z : K} (hq : p.write t z = some q) : LimitInv q (pts ++ [(t, z)]) chunks (rest ++ [(t, z)]) := by
  unfold LimitPlot.write at hq
  split_ifs at hq with hlt
  cases hq
  have hsz := h.size
  have hroom := h.room
  refine ⟨by rw [h.split, List.append_assoc], h.full, h.shown, ?_, ?_, ?_, ?_, h.labels⟩
  · simp only [List.length_append, List.length_singleton, h.size]
  · simp only [List.length_set, h.room]
  · show (p.buff.set p.size (t, z)).take _ = _
    rw [List.length_append, List.length_singleton, hsz, List.take_add_one, List.take_set_of_le (le_refl _),
      h.held, List.getElem?_set_self (by omega)]
    rfl
  · show (p.buff.set p.size (t, z)).drop _ = _
    rw [List.length_append, List.length_singleton, List.drop_set_of_lt (by omega)]
    by_cases hr : rest.length + 1 ≤ 1000
    · have := h.zeros
      rw [max_eq_left (by omega)] at this ⊢
      exact this
    · have := h.zeros
      rw [max_eq_right (by omega)] at this ⊢
      rw [← List.drop_drop, this, List.drop_replicate]
      rfl

theorem limitInv_writes (t : K) : ∀ (zs : List K) {p q : LimitPlot K} {pts chunks rest},
    LimitInv p pts chunks rest →
    zs.foldlM (fun (q : LimitPlot K) zero => q.write t zero) p = some q →
    LimitInv q (pts ++ zs.map fun z => (t, z)) chunks (rest ++ zs.map fun z => (t, z)) := by
  intro zs
  induction zs with
  | nil => intro p q pts chunks rest h hq; cases hq; simpa using h
  | cons z zs ih =>
    intro p q pts chunks rest h hq
    rw [List.foldlM_cons] at hq
    cases hw : p.write t z with
    | none => rw [hw] at hq; cases hq
    | some p' =>
      rw [hw] at hq
      have := ih (limitInv_write h hw) hq
      simpa using this

theorem limitInv_flush {p : LimitPlot K} {pts chunks rest} (h : LimitInv p pts chunks rest) :
    ∃ chunks' rest', LimitInv p.flush pts chunks' rest' ∧ rest'.length ≠ 1000 := by
  unfold LimitPlot.flush
  split_ifs with hs
  · have hr : rest.length = 1000 := h.size ▸ hs
    refine ⟨chunks ++ [rest], [], ⟨?_, ?_, ?_, rfl, h.room, ?_, ?_, ?_⟩, by simp⟩
    · rw [h.split, List.flatten_append, List.flatten_singleton, List.append_nil]
    · intro c hc
      rcases List.mem_append.1 hc with hc | hc
      · exact h.full c hc
      · rw [List.mem_singleton.1 hc, hr]
    · have hb : p.buff = rest ++ List.replicate 100 (0, 0) := by
        have h1 := h.held
        have h2 := h.zeros
        rw [hr] at h1 h2
        rw [max_self] at h2
        rw [← List.take_append_drop 1000 p.buff, h1, h2]
      simp only [h.shown, List.map_append, List.map_cons, List.map_nil, hb]
    · simp
    · have h2 := h.zeros
      rw [hr] at h2
      simpa using h2
    · show p.labels ++ _ = _
      rw [List.length_append, List.length_singleton, List.range_succ, List.map_append, ← h.labels]
      congr 1
      simp only [List.map_cons, List.map_nil, List.cons.injEq, and_true]
      rw [h.labels]
      exact isEmpty_labels _
  · exact ⟨chunks, rest, h, by rw [← h.size]; exact hs⟩

theorem limitInv_steps : ∀ (data : List (K × List K)) {p q : LimitPlot K} {pts chunks rest},
    LimitInv p pts chunks rest → rest.length ≠ 1000 →
    data.foldlM LimitPlot.step p = some q →
    ∃ chunks' rest', LimitInv q (pts ++ recorded data) chunks' rest' ∧ rest'.length ≠ 1000 := by
  intro data
  induction data with
  | nil =>
    intro p q pts chunks rest h hr hq
    cases hq
    exact ⟨chunks, rest, by simpa [recorded] using h, hr⟩
  | cons e es ih =>
    intro p q pts chunks rest h hr hq
    rw [List.foldlM_cons] at hq
    cases hw : e.2.foldlM (fun (q : LimitPlot K) zero => q.write e.1 zero) p with
    | none =>
      rw [show p.step e = none by unfold LimitPlot.step; rw [hw]; rfl] at hq
      cases hq
    | some p' =>
      rw [show p.step e = some p'.flush by unfold LimitPlot.step; rw [hw]; rfl] at hq
      obtain ⟨c', r', h', hr'⟩ := limitInv_flush (limitInv_writes e.1 e.2 h hw)
      obtain ⟨c, r, h2, hr2⟩ := ih h' hr' hq
      refine ⟨c, r, ?_, hr2⟩
      have : recorded (e :: es) = (e.2.map fun z => (e.1, z)) ++ recorded es := rfl
      rw [this, ← List.append_assoc]
      exact h2

/-- C81: a plot that is finished shows all recorded points in the right order and otherwise only
points at the origin: 100 of them after each 1000 recorded points, unless these are the last ones. -/
theorem C81_shown_partial (data : List (K × List K)) (p : LimitPlot K)
    (h : plotLimitPoints data = some p) :
    ∃ (chunks : List (List (K × K))) (rest : List (K × K)), recorded data = chunks.flatten ++ rest ∧ (∀ c ∈ chunks, c.length = 1000) ∧
      rest.length ≤ 1100 ∧
      p.scatters = (chunks.map fun c => c ++ List.replicate 100 (0, 0)) ++
        (if rest = [] then [] else [rest]) := by
  unfold plotLimitPoints at h
  cases hd : data.foldlM LimitPlot.step LimitPlot.start with
  | none => rw [hd] at h; cases h
  | some q =>
    rw [hd] at h
    cases h
    obtain ⟨chunks, rest, hi, -⟩ := limitInv_steps data limitInv_start (by simp) hd
    refine ⟨chunks, rest, by simpa using hi.split, hi.full, ?_, ?_⟩
    · have := congrArg List.length hi.held
      rw [List.length_take, hi.room] at this
      omega
    · unfold LimitPlot.finish
      by_cases hr : rest = []
      · rw [if_neg (by rw [hi.size, hr]; simp), if_pos hr, List.append_nil, hi.shown]
      · rw [if_pos (by rw [hi.size]; exact List.length_pos_iff.2 hr), if_neg hr, hi.size]
        simp only [hi.shown, hi.held]

/-- C81: the legend has one entry: the first call has the label, the others have not. -/
theorem C81_label (data : List (K × List K)) (p : LimitPlot K) (h : plotLimitPoints data = some p) :
    p.labels = (List.range p.scatters.length).map fun i => i == 0 := by
  unfold plotLimitPoints at h
  cases hd : data.foldlM LimitPlot.step LimitPlot.start with
  | none => rw [hd] at h; cases h
  | some q =>
    rw [hd] at h
    cases h
    obtain ⟨chunks, rest, hi, -⟩ := limitInv_steps data limitInv_start (by simp) hd
    unfold LimitPlot.finish
    split_ifs
    · show q.labels ++ _ = _
      rw [List.length_append, List.length_singleton, List.range_succ, List.map_append, ← hi.labels]
      congr 1
      simp only [List.map_cons, List.map_nil, List.cons.injEq, and_true]
      rw [hi.labels]
      exact isEmpty_labels _
    · exact hi.labels

theorem writes_some (t : K) : ∀ (zs : List K) (p : LimitPlot K), p.size + zs.length ≤ p.buff.length →
    ∃ q, zs.foldlM (fun (q : LimitPlot K) zero => q.write t zero) p = some q ∧
      q.size = p.size + zs.length ∧ q.buff.length = p.buff.length ∧ q.scatters = p.scatters := by
  intro zs
  induction zs with
  | nil => intro p _; exact ⟨p, rfl, rfl, rfl, rfl⟩
  | cons z zs ih =>
    intro p hp
    rw [List.length_cons] at hp
    have hw : p.write t z = some { p with buff := p.buff.set p.size (t, z), size := p.size + 1 } :=
      if_pos (by omega)
    obtain ⟨q, h1, h2, h3, h4⟩ := ih { p with buff := p.buff.set p.size (t, z), size := p.size + 1 }
      (by simp only [List.length_set]; omega)
    refine ⟨q, ?_, ?_, ?_, h4⟩
    · rw [List.foldlM_cons, hw]; exact h1
    · rw [h2, List.length_cons]; simp only; omega
    · rw [h3, List.length_set]

theorem recorded_cons (e : K × List K) (es : List (K × List K)) :
    recorded (e :: es) = (e.2.map fun z => (e.1, z)) ++ recorded es := rfl

theorem steps_some : ∀ (data : List (K × List K)) (p : LimitPlot K),
    p.size + (recorded data).length ≤ p.buff.length →
    ∃ q, data.foldlM LimitPlot.step p = some q := by
  intro data
  induction data with
  | nil => intro p _; exact ⟨p, rfl⟩
  | cons e es ih =>
    intro p hp
    rw [recorded_cons, List.length_append, List.length_map] at hp
    obtain ⟨q, h1, h2, h3, -⟩ := writes_some e.1 e.2 p (by omega)
    have hf : q.flush.size + (recorded es).length ≤ q.flush.buff.length := by
      unfold LimitPlot.flush
      split_ifs
      · simp only; omega
      · omega
    obtain ⟨r, hr⟩ := ih q.flush hf
    refine ⟨r, ?_⟩
    rw [List.foldlM_cons, show p.step e = some q.flush by unfold LimitPlot.step; rw [h1]; rfl]
    exact hr

/-- C81: plots with at most 1100 points are finished. -/
theorem C81_finished_partial (data : List (K × List K)) (h : (recorded data).length ≤ 1100) :
    ∃ p, plotLimitPoints data = some p := by
  obtain ⟨q, hq⟩ := steps_some data LimitPlot.start (by
    simp only [LimitPlot.start, List.length_replicate]; omega)
  exact ⟨_, by unfold plotLimitPoints; rw [hq]; rfl⟩

/-- C81: with less than 1000 points the plot shows exactly the recorded points. -/
theorem C81_exact_partial (data : List (K × List K)) (h : (recorded data).length < 1000) :
    ∃ p, plotLimitPoints data = some p ∧ p.scatters.flatten = recorded data := by
  obtain ⟨p, hp⟩ := C81_finished_partial data (by omega)
  refine ⟨p, hp, ?_⟩
  obtain ⟨chunks, rest, h1, h2, -, h4⟩ := C81_shown_partial data p hp
  cases chunks with
  | nil =>
    rw [h4, h1]
    by_cases hr : rest = []
    · simp [hr]
    · simp [hr]
  | cons c cs =>
    have := h2 c List.mem_cons_self
    rw [h1] at h
    simp only [List.flatten_cons, List.length_append, this] at h
    omega

theorem steps_scatters : ∀ (data : List (K × List K)) (p q : LimitPlot K),
    data.foldlM LimitPlot.step p = some q → p.scatters.length ≤ q.scatters.length := by
  have hw : ∀ (t : K) (zs : List K) (p q : LimitPlot K),
      zs.foldlM (fun (q : LimitPlot K) zero => q.write t zero) p = some q →
      q.scatters = p.scatters := by
    intro t zs
    induction zs with
    | nil => intro p q h; cases h; rfl
    | cons z zs ih =>
      intro p q h
      rw [List.foldlM_cons] at h
      by_cases hl : p.size < p.buff.length
      · rw [show p.write t z = some _ from if_pos hl] at h
        have := ih _ q h
        exact this
      · rw [show p.write t z = none from if_neg hl] at h; cases h
  intro data
  induction data with
  | nil => intro p q h; cases h; exact le_refl _
  | cons e es ih =>
    intro p q h
    rw [List.foldlM_cons] at h
    cases hs : e.2.foldlM (fun (q : LimitPlot K) zero => q.write e.1 zero) p with
    | none =>
      rw [show p.step e = none by unfold LimitPlot.step; rw [hs]; rfl] at h
      cases h
    | some p' =>
      rw [show p.step e = some p'.flush by unfold LimitPlot.step; rw [hs]; rfl] at h
      refine le_trans ?_ (ih _ _ h)
      rw [← hw _ _ _ _ hs]
      unfold LimitPlot.flush
      split_ifs
      · simp
      · exact le_refl _

/-- The points of filled buffers. -/
theorem shown_perm (chunks : List (List (K × K))) :
    (chunks.map fun c => c ++ List.replicate 100 (0, 0)).flatten.Perm
      (chunks.flatten ++ List.replicate (100 * chunks.length) (0, 0)) := by
  induction chunks with
  | nil => exact List.Perm.refl _
  | cons c cs ih =>
    simp only [List.map_cons, List.flatten_cons, List.length_cons]
    rw [Nat.mul_succ, Nat.add_comm, List.replicate_add, List.append_assoc, List.append_assoc]
    refine List.Perm.append_left _ ?_
    refine (List.Perm.append_left _ ih).trans ?_
    rw [← List.append_assoc, ← List.append_assoc]
    exact List.Perm.append_right _ List.perm_append_comm

/-- C81 is wrong: whenever the points of some first times are exactly 1000, as with one zero at each of
1000 times, the plot shows additional points: 100 at the origin for each time the buffer was
filled. -/
theorem C81_origin_wrong (data : List (K × List K)) (p : LimitPlot K) (hd : HasThousand data)
    (h : plotLimitPoints data = some p) :
    ∃ n, 0 < n ∧
      p.scatters.flatten.Perm (recorded data ++ List.replicate (100 * n) (0, 0)) := by
  obtain ⟨a, b, rfl, ha⟩ := hd
  unfold plotLimitPoints at h
  rw [List.foldlM_append] at h
  cases h1 : a.foldlM LimitPlot.step LimitPlot.start with
  | none => rw [h1] at h; cases h
  | some q =>
    rw [h1] at h
    cases h2 : b.foldlM LimitPlot.step q with
    | none => simp only [bind, Option.bind, h2] at h; cases h
    | some r =>
      simp only [bind, Option.bind, h2] at h
      cases h
      obtain ⟨c1, r1, i1, hr1⟩ := limitInv_steps a limitInv_start (by simp) h1
      obtain ⟨c2, r2, i2, -⟩ := limitInv_steps b i1 hr1 h2
      have hc1 : c1 ≠ [] := by
        rintro rfl
        have := congrArg List.length i1.split
        simp only [List.nil_append, List.flatten_nil, ha] at this
        exact hr1 this.symm
      have hlen : c2.length ≠ 0 := by
        have := steps_scatters b q r h2
        rw [i1.shown, i2.shown, List.length_map, List.length_map] at this
        have := List.length_pos_iff.2 hc1
        omega
      refine ⟨c2.length, Nat.pos_of_ne_zero hlen, ?_⟩
      have hsh : r.finish.scatters.flatten =
          (c2.map fun c => c ++ List.replicate 100 (0, 0)).flatten ++ r2 := by
        unfold LimitPlot.finish
        by_cases hr : r2 = []
        · rw [if_neg (by rw [i2.size, hr]; simp), hr, List.append_nil, i2.shown]
        · rw [if_pos (by rw [i2.size]; exact List.length_pos_iff.2 hr)]
          simp only [i2.size, i2.held, i2.shown, List.flatten_append, List.flatten_singleton]
      have hrec : recorded (a ++ b) = c2.flatten ++ r2 := by
        have e : recorded (a ++ b) = recorded a ++ recorded b := List.flatMap_append
        rw [e, ← i2.split]
        rfl
      rw [hsh, hrec]
      refine (List.Perm.append_right _ (shown_perm c2)).trans ?_
      rw [List.append_assoc, List.append_assoc]
      exact List.Perm.append_left _ List.perm_append_comm

theorem steps_overflow : ∀ (data : List (K × List K)) (p q : LimitPlot K),
    p.buff.length = 1100 →
    (∀ a b, data = a ++ b → a ≠ [] → p.size + (recorded a).length ≠ 1000) →
    data.foldlM LimitPlot.step p = some q →
    q.size = p.size + (recorded data).length ∧ q.buff.length = 1100 := by
  have hw : ∀ (t : K) (zs : List K) (p q : LimitPlot K),
      zs.foldlM (fun (q : LimitPlot K) zero => q.write t zero) p = some q →
      q.size = p.size + zs.length ∧ q.buff.length = p.buff.length := by
    intro t zs
    induction zs with
    | nil => intro p q h; cases h; exact ⟨rfl, rfl⟩
    | cons z zs ih =>
      intro p q h
      rw [List.foldlM_cons] at h
      by_cases hl : p.size < p.buff.length
      · rw [show p.write t z = some _ from if_pos hl] at h
        obtain ⟨h1, h2⟩ := ih _ q h
        rw [h1, h2, List.length_cons, List.length_set]
        exact ⟨by simp only; omega, rfl⟩
      · rw [show p.write t z = none from if_neg hl] at h; cases h
  intro data
  induction data with
  | nil => intro p q hb _ h; cases h; exact ⟨rfl, hb⟩
  | cons e es ih =>
    intro p q hb hno h
    rw [List.foldlM_cons] at h
    cases hs : e.2.foldlM (fun (q : LimitPlot K) zero => q.write e.1 zero) p with
    | none =>
      rw [show p.step e = none by unfold LimitPlot.step; rw [hs]; rfl] at h
      cases h
    | some p' =>
      rw [show p.step e = some p'.flush by unfold LimitPlot.step; rw [hs]; rfl] at h
      obtain ⟨h1, h2⟩ := hw _ _ _ _ hs
      have hne : p'.size ≠ 1000 := by
        have := hno [e] es rfl (by simp)
        simpa [recorded, h1] using this
      rw [show p'.flush = p' from if_neg hne] at h
      obtain ⟨h3, h4⟩ := ih p' q (h2.trans hb) (by
        intro a b hab _
        have := hno (e :: a) b (by rw [hab]; rfl) (by simp)
        rw [recorded_cons, List.length_append, List.length_map] at this
        omega) h
      refine ⟨?_, h4⟩
      rw [h3, h1, recorded_cons, List.length_append, List.length_map]
      omega

/-- C81 is wrong: with more than 1100 points the plot fails, unless the points of some first times are
exactly 1000. -/
theorem C81_overflow_wrong (data : List (K × List K)) (hd : ¬ HasThousand data)
    (h : 1100 < (recorded data).length) : plotLimitPoints data = none := by
  unfold plotLimitPoints
  cases hs : data.foldlM LimitPlot.step LimitPlot.start with
  | none => rfl
  | some q =>
    exfalso
    obtain ⟨h1, -⟩ := steps_overflow data _ q List.length_replicate (fun a b hab _ he => hd
      ⟨a, b, hab, (Nat.zero_add _).symm.trans he⟩) hs
    obtain ⟨c, r, hi, -⟩ := limitInv_steps data limitInv_start (by simp) hs
    have := congrArg List.length hi.held
    rw [List.length_take, hi.room, ← hi.size, h1] at this
    simp only [LimitPlot.start] at this
    omega

/-- A product with one zero at each time, and one with two points too many at the wrong place. -/
example (n : ℕ) (h : 1000 ≤ n) :
    HasThousand ((List.range n).map fun (i : ℕ) => ((i : ℚ), [(1 / 2 : ℚ)])) := by
  refine ⟨(List.range 1000).map fun (i : ℕ) => ((i : ℚ), [(1 / 2 : ℚ)]),
    ((List.range n).map fun (i : ℕ) => ((i : ℚ), [(1 / 2 : ℚ)])).drop 1000, ?_, ?_⟩
  · have : (List.range 1000).map (fun (i : ℕ) => ((i : ℚ), [(1 / 2 : ℚ)])) =
        ((List.range n).map fun (i : ℕ) => ((i : ℚ), [(1 / 2 : ℚ)])).take 1000 := by
      rw [← List.map_take, List.take_range, Nat.min_eq_left h]
    rw [this, List.take_append_drop]
  · rw [recorded, List.length_flatMap, List.map_map]
    have : ((fun a : ℚ × List ℚ => (List.map (fun z => (a.1, z)) a.2).length) ∘
        fun (i : ℕ) => ((i : ℚ), [(1 / 2 : ℚ)])) = fun _ => 1 := rfl
    rw [this, List.map_const', List.length_range, List.sum_replicate]
    norm_num
example : ¬ HasThousand [((0 : ℚ), List.replicate 1101 (1 : ℚ))] ∧
    1100 < (recorded [((0 : ℚ), List.replicate 1101 (1 : ℚ))]).length := by
  constructor
  · rintro ⟨a, b, hab, ha⟩
    cases a with
    | nil => simp [recorded] at ha
    | cons x xs =>
      simp only [List.cons_append, List.cons.injEq, List.nil_eq, List.append_eq_nil_iff] at hab
      obtain ⟨rfl, rfl, -⟩ := hab
      rw [recorded, List.flatMap_singleton, List.length_map, List.length_replicate] at ha
      omega
  · rw [recorded, List.flatMap_singleton, List.length_map, List.length_replicate]
    omega
example : (recorded [((1 : ℚ), [(2 : ℚ), 3]), (2, [])]).length < 1000 := by decide +kernel

end C81

section C82

variable {K : Type} [Field K] [LinearOrder K]

omit [Field K] in
theorem foldl_min_le : ∀ (l : List K) (a : K), l.foldl min a ≤ a ∧ ∀ x ∈ l, l.foldl min a ≤ x := by
  intro l
  induction l with
  | nil => intro a; exact ⟨le_refl _, fun x hx => nomatch hx⟩
  | cons y ys ih =>
    intro a
    obtain ⟨h1, h2⟩ := ih (min a y)
    refine ⟨h1.trans (min_le_left _ _), fun x hx => ?_⟩
    rcases List.mem_cons.1 hx with rfl | hx
    · exact h1.trans (min_le_right _ _)
    · exact h2 x hx

omit [Field K] in
theorem le_foldl_max : ∀ (l : List K) (a : K), a ≤ l.foldl max a ∧ ∀ x ∈ l, x ≤ l.foldl max a := by
  intro l
  induction l with
  | nil => intro a; exact ⟨le_refl _, fun x hx => nomatch hx⟩
  | cons y ys ih =>
    intro a
    obtain ⟨h1, h2⟩ := ih (max a y)
    refine ⟨(le_max_left _ _).trans h1, fun x hx => ?_⟩
    rcases List.mem_cons.1 hx with rfl | hx
    · exact (le_max_right _ _).trans h1
    · exact h2 x hx

theorem lowestOf_le {l : List K} {x : K} (h : x ∈ l) : lowestOf l ≤ x := by
  cases l with
  | nil => cases h
  | cons a l =>
    rcases List.mem_cons.1 h with rfl | h
    · exact (foldl_min_le l _).1
    · exact (foldl_min_le l a).2 x h

theorem le_highestOf {l : List K} {x : K} (h : x ∈ l) : x ≤ highestOf l := by
  cases l with
  | nil => cases h
  | cons a l =>
    rcases List.mem_cons.1 h with rfl | h
    · exact (le_foldl_max l _).1
    · exact (le_foldl_max l a).2 x h

variable [IsStrictOrderedRing K]

theorem axisLimits_contain (nodes displaced : List K) (x : K) (hx : x ∈ nodes ∨ x ∈ displaced) :
    (axisLimits none none nodes displaced).2.1 ≤ x ∧ x ≤ (axisLimits none none nodes displaced).2.2 := by
  have hl : min (lowestOf nodes) (lowestOf displaced) ≤ x := by
    rcases hx with h | h
    · exact (min_le_left _ _).trans (lowestOf_le h)
    · exact (min_le_right _ _).trans (lowestOf_le h)
  have hh : x ≤ max (highestOf nodes) (highestOf displaced) := by
    rcases hx with h | h
    · exact (le_highestOf h).trans (le_max_left _ _)
    · exact (le_highestOf h).trans (le_max_right _ _)
  simp only [axisLimits, Option.getD_none]
  constructor <;> linarith

/-- C82: the limits of the axes in the first drawing contain every node and every displaced node. -/
theorem C82_limits_partial (s : DrawnState K) (p : K × K) (hp : p ∈ s.nodes ∨ p ∈ s.displaced) :
    let l := (({} : DrawerState K).setLimits s).2
    l.1.1 ≤ p.1 ∧ p.1 ≤ l.1.2 ∧ l.2.1 ≤ p.2 ∧ p.2 ≤ l.2.2 := by
  have h1 := axisLimits_contain (s.nodes.map Prod.fst) (s.displaced.map Prod.fst) p.1
    (hp.imp (fun h => List.mem_map_of_mem h) fun h => List.mem_map_of_mem h)
  have h2 := axisLimits_contain (s.nodes.map Prod.snd) (s.displaced.map Prod.snd) p.2
    (hp.imp (fun h => List.mem_map_of_mem h) fun h => List.mem_map_of_mem h)
  exact ⟨h1.1, h1.2, h2.1, h2.2⟩

omit [IsStrictOrderedRing K] in
/-- C82: limits that were chosen before are used, with a margin of a fifth of the width. -/
theorem C82_chosen (d : DrawerState K) (s : DrawnState K) (a b : K) (ha : d.xMin = some a)
    (hb : d.xMax = some b) :
    (d.setLimits s).2.1 = (a - (b - a) / 5, b + (b - a) / 5) := by
  simp only [DrawerState.setLimits, axisLimits, ha, hb, Option.getD_some]
  ext <;> simp only <;> ring

omit [IsStrictOrderedRing K] in
/-- C82 is wrong for later drawings: their limits are those of the first one, wherever the body is. -/
theorem C82_later_wrong (d : DrawerState K) (s s' : DrawnState K) :
    ((d.setLimits s).1.setLimits s').2 = (d.setLimits s).2 := rfl

/-- A body that has moved out of the picture. -/
example : ∃ s s' : DrawnState ℚ, ∃ p ∈ s'.displaced,
    (((({} : DrawerState ℚ).setLimits s).1.setLimits s').2).1.2 < p.1 :=
  ⟨⟨[(0, 0), (1, 0), (0, 1)], [(0, 0), (1, 0), (0, 1)], fun _ => (0, 0)⟩,
    ⟨[(0, 0), (1, 0), (0, 1)], [(2, 0), (3, 0), (2, 1)], fun _ => (0, 0)⟩, (2, 0), by simp,
    by decide +kernel⟩

/-- C82: an edge is drawn if and only if its ends are two of the vertices of an element. -/
theorem C82_edges (elements : List (ℕ × ℕ × ℕ)) (i j : ℕ) :
    ((i, j) ∈ meshEdges elements ∨ (j, i) ∈ meshEdges elements) ↔
      ∃ e ∈ elements, ∃ a b : Fin 3, a ≠ b ∧
        [e.1, e.2.1, e.2.2].get a = i ∧ [e.1, e.2.1, e.2.2].get b = j := by
  simp only [meshEdges, List.mem_flatMap, List.mem_cons, List.not_mem_nil, or_false, Prod.mk.injEq]
  rw [← exists_or]
  refine exists_congr fun e => ?_
  rw [← and_or_left]
  refine and_congr_right fun _ => ⟨?_, ?_⟩
  · rintro ((⟨rfl, rfl⟩ | ⟨rfl, rfl⟩ | ⟨rfl, rfl⟩) | ⟨rfl, rfl⟩ | ⟨rfl, rfl⟩ | ⟨rfl, rfl⟩)
    · exact ⟨0, 1, by decide, rfl, rfl⟩
    · exact ⟨0, 2, by decide, rfl, rfl⟩
    · exact ⟨1, 2, by decide, rfl, rfl⟩
    · exact ⟨1, 0, by decide, rfl, rfl⟩
    · exact ⟨2, 0, by decide, rfl, rfl⟩
    · exact ⟨2, 1, by decide, rfl, rfl⟩
  · rintro ⟨a, b, hab, rfl, rfl⟩
    fin_cases a <;> fin_cases b <;> simp at hab ⊢

omit [LinearOrder K] [IsStrictOrderedRing K] in
/-- C82: the first drawing has an arrow at every loaded node, with the force at this node. -/
theorem C82_forces_partial (d : DrawerState K) (hd : d.outerForcesArrows = none) (s : DrawnState K)
    (boundary : List ℕ) :
    (d.drawForces s boundary).2 = boundary.map fun i => (s.displaced.getD i (0, 0), s.force i) := by
  unfold DrawerState.drawForces
  rw [hd]

omit [LinearOrder K] [IsStrictOrderedRing K] in
/-- C82 is wrong for the forces of later drawings: the arrows stay. -/
theorem C82_forces_wrong (d : DrawerState K) (s s' : DrawnState K) (boundary boundary' : List ℕ) :
    ((d.drawForces s boundary).1.drawForces s' boundary').2 = (d.drawForces s boundary).2 := by
  cases h : d.outerForcesArrows with
  | none =>
    have e : d.drawForces s boundary =
        ({ d with outerForcesArrows := some (boundary.map fun i => (s.displaced.getD i (0, 0), s.force i)) },
          boundary.map fun i => (s.displaced.getD i (0, 0), s.force i)) := by
      unfold DrawerState.drawForces; rw [h]
    rw [e]
    rfl
  | some a =>
    have e : ∀ s b, d.drawForces s b = (d, a) := fun s b => by unfold DrawerState.drawForces; rw [h]
    rw [e, e]

omit [LinearOrder K] [IsStrictOrderedRing K] in
/-- C82: with two fixed nodes there is an arrow at both. -/
theorem C82_dirichlet_partial (d : DrawerState K) (hd : d.dirichletArrows = none) (s : DrawnState K)
    (i j : ℕ) :
    (d.drawDirichlet s [i, j]).map Prod.snd =
      some [s.displaced.getD i (0, 0), s.displaced.getD j (0, 0)] := by
  unfold DrawerState.drawDirichlet
  rw [hd]
  rfl

omit [LinearOrder K] [IsStrictOrderedRing K] in
/-- C82 is wrong for other numbers of fixed nodes: with fewer than two the drawing fails, with more
there are two arrows only. -/
theorem C82_dirichlet_wrong (d : DrawerState K) (hd : d.dirichletArrows = none) (s : DrawnState K)
    (boundary : List ℕ) :
    (boundary.length < 2 → d.drawDirichlet s boundary = none) ∧
    (2 ≤ boundary.length → ∃ r, d.drawDirichlet s boundary = some r ∧
      r.2 = (boundary.take 2).map fun i => s.displaced.getD i (0, 0)) := by
  unfold DrawerState.drawDirichlet
  rw [hd]
  rcases boundary with _ | ⟨a, _ | ⟨b, l⟩⟩
  · exact ⟨fun _ => rfl, fun h => absurd h (by simp)⟩
  · exact ⟨fun _ => rfl, fun h => absurd h (by simp)⟩
  · exact ⟨fun h => absurd h (by simp), fun _ => ⟨_, rfl, rfl⟩⟩

/-- A body with three fixed nodes: the third has no arrow. -/
example : ∃ r, ({} : DrawerState ℚ).drawDirichlet
    ⟨[(0, 0), (1, 0), (0, 1)], [(0, 0), (1, 0), (0, 1)], fun _ => (0, 0)⟩ [0, 1, 2] = some r ∧
    (0, 1) ∉ r.2 := ⟨_, rfl, by decide +kernel⟩

end C82

section C83

/-- C83: every state has a place of its own in the figure if and only if their number is even. -/
theorem C83_columns_iff (n : ℕ) : (columnSubplots n).all subplotExists = true ↔ Even n := by
  simp only [columnSubplots, List.all_map, List.all_eq_true, List.mem_range, Function.comp,
    subplotExists, decide_eq_true_eq]
  constructor
  · intro h
    rcases Nat.eq_zero_or_pos n with rfl | hn
    · exact ⟨0, rfl⟩
    · have := (h (n - 1) (by omega)).2.2.2
      exact ⟨n / 2, by omega⟩
  · rintro ⟨m, rfl⟩ k hk
    omega

/-- C83: with an even number of states the places are different. -/
theorem C83_columns_partial (n : ℕ) (h : Even n) :
    (∀ s ∈ columnSubplots n, subplotExists s = true) ∧ (columnSubplots n).Nodup ∧
      (columnSubplots n).length = n := by
  refine ⟨List.all_eq_true.1 ((C83_columns_iff n).2 h), ?_, by simp [columnSubplots]⟩
  refine List.Nodup.map ?_ List.nodup_range
  intro a b hab
  simpa using hab

/-- C83 is wrong: with an odd number of states there is no place for the last one, with a single state
for none. -/
theorem C83_columns_wrong (n : ℕ) (h : ¬ Even n) : ∃ s ∈ columnSubplots n, subplotExists s = false := by
  rw [← C83_columns_iff, List.all_eq_true] at h
  push Not at h
  obtain ⟨s, hs, hf⟩ := h
  exact ⟨s, hs, by simpa using hf⟩

/-- C83: the call for the plots in columns binds the figure and the state, unless these names are given
again. -/
theorem C83_columns_call (kwargs : List String) :
    columnsCall 0 kwargs = .ok ["fig", "state"] ↔ "fig" ∉ kwargs ∧ "state" ∉ kwargs := by
  unfold columnsCall bindArguments doPlotParameters
  by_cases h1 : "fig" ∈ kwargs <;> by_cases h2 : "state" ∈ kwargs <;> simp [h1, h2]

/-- C83: up to six further arguments go to the parameters before `ax`, unless these are given by name;
more than six always fail. -/
theorem C83_columns_arguments (args : ℕ) (kwargs : List String) :
    let names := ["fig", "state", "field", "vmin", "vmax", "zmin", "zmax", "title"]
    ((∃ bound, columnsCall args kwargs = .ok bound) ↔ args ≤ 6 ∧ ∀ n ∈ names.take (2 + args), n ∉ kwargs) ∧
    ∀ bound, columnsCall args kwargs = .ok bound → bound = names.take (2 + args) := by
  intro names
  by_cases h : args ≤ 6
  · have hlt : ¬ doPlotParameters.length < 2 + args := by
      show ¬ 13 < 2 + args
      omega
    have hb : (doPlotParameters.take (2 + args)).map Prod.fst = names.take (2 + args) := by
      interval_cases args <;> rfl
    have hfind : (doPlotParameters.drop (2 + args)).find? (fun p =>
        p.2 && !("ax" :: "elev" :: "azim" :: "in3d" :: kwargs).contains p.1) = none := by
      interval_cases args <;> simp [doPlotParameters]
    have hnames : ∀ n ∈ names.take (2 + args),
        (("ax" :: "elev" :: "azim" :: "in3d" :: kwargs).contains n = true ↔ n ∈ kwargs) := by
      intro n hn
      have : n ∈ names := List.mem_of_mem_take hn
      simp only [names, List.mem_cons, List.not_mem_nil, or_false] at this
      rcases this with rfl | rfl | rfl | rfl | rfl | rfl | rfl | rfl <;> simp
    unfold columnsCall bindArguments
    rw [if_neg hlt]
    simp only [hb, hfind]
    cases hf : (names.take (2 + args)).find? (fun n =>
        ("ax" :: "elev" :: "azim" :: "in3d" :: kwargs).contains n) with
    | some n =>
      have hn := List.mem_of_find?_eq_some hf
      have hk := (hnames n hn).1 (by simpa using List.find?_some hf)
      simp only [reduceCtorEq, exists_false, false_iff, false_implies, implies_true, and_true, not_and]
      intro _ hall
      exact hall n hn hk
    | none =>
      have hall := List.find?_eq_none.1 hf
      simp only [Except.ok.injEq, exists_eq', true_iff, forall_eq', and_true]
      exact ⟨h, fun n hn hk => hall n hn ((hnames n hn).2 hk)⟩
  · have herr : ∃ e, columnsCall args kwargs = .error e := by
      unfold columnsCall bindArguments
      by_cases hlt : doPlotParameters.length < 2 + args
      · rw [if_pos hlt]
        exact ⟨_, rfl⟩
      · rw [if_neg hlt]
        cases hf : ((doPlotParameters.take (2 + args)).map Prod.fst).find? (fun n =>
            ("ax" :: "elev" :: "azim" :: "in3d" :: kwargs).contains n) with
        | some n => exact ⟨.repeated n, by simp only [hf]⟩
        | none =>
          exfalso
          refine List.find?_eq_none.1 hf "ax" ?_ (by simp)
          have h13 : ¬ 13 < 2 + args := hlt
          have : 7 ≤ args := by omega
          have : args ≤ 11 := by omega
          interval_cases args <;> simp [doPlotParameters]
    obtain ⟨e, he⟩ := herr
    rw [he]
    simp [h]

/-- C83 is wrong: the plot of a single state fails whatever keywords are given, unless the state is
given a second time. -/
theorem C83_plot_wrong (kwargs : List String) (h : "state" ∉ kwargs) :
    ∃ e, plotCall 0 kwargs = .error e := by
  unfold plotCall bindArguments doPlotParameters
  by_cases h1 : "fig" ∈ kwargs
  · exact ⟨.repeated "fig", by simp [h1]⟩
  · exact ⟨.missing "state", by simp [h, h1]⟩

/-- C83, what is left of it: the plot of a single state is drawn if and only if the state is given a
second time, by its name or as the next argument. -/
theorem C83_plot_partial (kwargs : List String) :
    ((∃ bound, plotCall 0 kwargs = .ok bound) ↔ "fig" ∉ kwargs ∧ "state" ∈ kwargs) ∧
    ((∃ bound, plotCall 1 kwargs = .ok bound) ↔ "fig" ∉ kwargs ∧ "state" ∉ kwargs) := by
  unfold plotCall bindArguments doPlotParameters
  by_cases h1 : "fig" ∈ kwargs <;> by_cases h2 : "state" ∈ kwargs <;> simp [h1, h2]

example : plotCall 0 ["field", "in3d"] = .error (.missing "state") := by decide +kernel
example : ¬ Even 3 ∧ Even 4 := by decide

end C83

end Conmech
