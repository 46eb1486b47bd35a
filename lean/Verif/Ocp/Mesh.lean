import Verif.Base.Py
import Verif.Base.Np
import Mathlib.Data.Real.Basic
import Mathlib.Tactic.Linarith
import Mathlib.Tactic.Positivity
import Mathlib.Tactic.FieldSimp
import Mathlib.Tactic.NormNum
import Mathlib.Algebra.Order.BigOperators.Group.List
import Mathlib.Data.List.Chain
/-!
# The normalized mesh (scaled_mesh_ocp.py:472-575) and property C23
-/

namespace Lumos.Ocp

open Lumos

/-! ## Model -/

/-- `np.linspace(0, 1.0, n + 1)`: `k / n`; a single 0 when `n = 0`. -/
noncomputable def linspace01 (n : Nat) : List ℝ := (List.range (n + 1)).map fun (k : Nat) => (k : ℝ) / (n : ℝ)

/-- `np.diff(x) > 0` for all entries (scaled_mesh_ocp.py:503). -/
def increasing (x : List ℝ) : Prop := ∀ d ∈ List.zipWith (fun a b => b - a) x x.tail, 0 < d

open Classical in
/-- The checks on user-given interval points (scaled_mesh_ocp.py:487-504). -/
noncomputable def checkPoints (numIntervals : Nat) (pts : List ℝ) : Py Unit :=
  if (pts.length : Int) - 1 ≠ numIntervals then .error .valueError
  else if |pts.getD 0 0| ≥ 1e-6 ∨ |pts.getD (pts.length - 1) 0 - 1| ≥ 1e-6 then .error .valueError
  else if ¬ increasing pts then .error .valueError
  else .ok ()

/-- The mesh of one interval (scaled_mesh_ocp.py:511-526): LGR schemes give their interpolation points,
the others the two end points. -/
noncomputable def intervalMesh (interp : Option (List ℝ)) (pts : List ℝ) (i : Nat) : List ℝ :=
  match interp with
  | some taus =>
    let len := pts.getD (i + 1) 0 - pts.getD i 0
    taus.map fun t => pts.getD i 0 + t * len
  | none => [pts.getD i 0, pts.getD (i + 1) 0]

/-- `set_normalized_mesh` (scaled_mesh_ocp.py:472-528). -/
noncomputable def setMesh (interp : Option (List ℝ)) (numIntervals : Nat) (pts : Option (List ℝ)) :
    Py (List (List ℝ)) :=
  match pts with
  | some p =>
    match checkPoints numIntervals p with
    | .error e => .error e
    | .ok _ => .ok ((List.range numIntervals).map (intervalMesh interp p))
  | none => .ok ((List.range numIntervals).map (intervalMesh interp (linspace01 numIntervals)))

/-- `_flat_normalized_mesh` (scaled_mesh_ocp.py:530-539): `np.hstack([])` raises ValueError. -/
def flatMesh (mesh : List (List ℝ)) : Py (List ℝ) :=
  match mesh with
  | [] => .error .valueError
  | m :: ms => .ok (m ++ ms.flatMap List.tail)

/-- `_normalized_interval_length` (scaled_mesh_ocp.py:541-544): `np.vstack([])` raises ValueError. -/
noncomputable def intervalLengths (mesh : List (List ℝ)) : Py (List ℝ) :=
  if mesh = [] then .error .valueError
  else .ok (mesh.map fun m => m.getD (m.length - 1) 0 - m.getD 0 0)

/-- `get_mesh_from_scale` (scaled_mesh_ocp.py:572-582). -/
noncomputable def meshFromScale (mesh : List (List ℝ)) (scale : ℝ) : Py (List ℝ) := do
  let f ← flatMesh mesh
  return f.map (· * scale)

/-! ## Properties -/

/-- The relative stage positions within an interval: those of the scheme, or the two ends. -/
noncomputable def relPoints (interp : Option (List ℝ)) : List ℝ := interp.getD [0, 1]

/-- What a scheme's interpolation points satisfy: at least two, strictly increasing from 0 to 1. -/
structure GoodRel (taus : List ℝ) : Prop where
  two : 2 ≤ taus.length
  first : taus[0]? = some 0
  last : taus[taus.length - 1]? = some 1
  incr : taus.Pairwise (· < ·)

/-- The points of the problem: the given ones, or uniform. -/
noncomputable def pointsOf (n : Nat) (pts : Option (List ℝ)) : List ℝ := pts.getD (linspace01 n)

theorem increasing_iff (x : List ℝ) : increasing x ↔ x.Pairwise (· < ·) := by
  rw [← List.isChain_iff_pairwise]
  unfold increasing
  induction x with
  | nil => simp
  | cons a x ih =>
    cases x with
    | nil => simp
    | cons b x =>
      simp only [List.tail_cons] at ih
      simp only [List.tail_cons, List.zipWith_cons_cons, List.mem_cons, forall_eq_or_imp, sub_pos,
        List.isChain_cons_cons, ih]

/-- **C23 (acceptance).** User-given interval points are accepted exactly if they are `num_intervals + 1`
many, start within 1e-6 of 0, end within 1e-6 of 1, and strictly increase; otherwise ValueError. -/
theorem C23_acceptance (interp : Option (List ℝ)) (n : Nat) (pts : List ℝ) :
    if pts.length = n + 1 ∧ |pts.getD 0 0| < 1e-6 ∧ |pts.getD n 0 - 1| < 1e-6 ∧ pts.Pairwise (· < ·)
    then ∃ mesh, setMesh interp n (some pts) = .ok mesh
    else setMesh interp n (some pts) = .error .valueError := by
  simp only [setMesh]
  unfold checkPoints
  by_cases h1 : pts.length = n + 1
  · have e1 : ¬ ((pts.length : Int) - 1 ≠ n) := by omega
    have e2 : pts.length - 1 = n := by omega
    simp only [if_neg e1, e2]
    by_cases h2 : |pts.getD 0 0| < 1e-6
    · by_cases h3 : |pts.getD n 0 - 1| < 1e-6
      · have e3 : ¬ (|pts.getD 0 0| ≥ 1e-6 ∨ |pts.getD n 0 - 1| ≥ 1e-6) := by
          rw [not_or, not_le, not_le]; exact ⟨h2, h3⟩
        simp only [if_neg e3]
        by_cases h4 : pts.Pairwise (· < ·)
        · simp only [if_pos (And.intro h1 (And.intro h2 (And.intro h3 h4))), if_neg (not_not.mpr ((increasing_iff pts).mpr h4))]
          exact ⟨_, rfl⟩
        · have e5 : ¬ increasing pts := fun h => h4 ((increasing_iff pts).mp h)
          rw [if_neg (fun h => h4 h.2.2.2)]
          simp only [if_pos e5]
      · have e5 : |pts.getD 0 0| ≥ 1e-6 ∨ |pts.getD n 0 - 1| ≥ 1e-6 := Or.inr (not_lt.mp h3)
        rw [if_neg (fun h => h3 h.2.2.1)]
        simp only [if_pos e5]
    · have e5 : |pts.getD 0 0| ≥ 1e-6 ∨ |pts.getD n 0 - 1| ≥ 1e-6 := Or.inl (not_lt.mp h2)
      rw [if_neg (fun h => h2 h.2.1)]
      simp only [if_pos e5]
  · have e1 : (pts.length : Int) - 1 ≠ n := by omega
    rw [if_neg (fun h => h1 h.1)]
    simp only [if_pos e1]

theorem length_linspace01 (n : Nat) : (linspace01 n).length = n + 1 := by simp [linspace01]

theorem getD_linspace01 (n k : Nat) (h : k ≤ n) : (linspace01 n).getD k 0 = (k : ℝ) / n := by
  have : k < n + 1 := by omega
  simp [linspace01, this]

theorem linspace01_incr {n : Nat} (hn : 1 ≤ n) : (linspace01 n).Pairwise (· < ·) := by
  unfold linspace01
  rw [List.pairwise_map]
  refine List.pairwise_lt_range.imp ?_
  intro a b hab
  have : (0 : ℝ) < n := by exact_mod_cast hn
  exact div_lt_div_of_pos_right (by exact_mod_cast hab) this

theorem intervalMesh_eq (interp : Option (List ℝ)) (pts : List ℝ) (i : Nat) :
    intervalMesh interp pts i =
      (relPoints interp).map fun t => pts.getD i 0 + t * (pts.getD (i + 1) 0 - pts.getD i 0) := by
  cases interp with
  | none => simp [intervalMesh, relPoints]
  | some taus => rfl

theorem goodRel_none : GoodRel (relPoints none) := by
  refine ⟨by simp [relPoints], by simp [relPoints], by simp [relPoints], by simp [relPoints]⟩

/-- The points of an accepted (or default) problem. -/
theorem setMesh_points {interp : Option (List ℝ)} {n : Nat} (hn : 1 ≤ n) {pts : Option (List ℝ)}
    {mesh : List (List ℝ)} (h : setMesh interp n pts = .ok mesh) :
    mesh = (List.range n).map (intervalMesh interp (pointsOf n pts)) ∧ (pointsOf n pts).length = n + 1 ∧
      (pointsOf n pts).Pairwise (· < ·) := by
  cases pts with
  | none =>
    simp only [setMesh, Except.ok.injEq] at h
    exact ⟨h.symm, length_linspace01 n, linspace01_incr hn⟩
  | some p =>
    have hacc := C23_acceptance interp n p
    split at hacc
    · rename_i hc
      refine ⟨?_, hc.1, hc.2.2.2⟩
      simp only [setMesh] at h
      cases hk : checkPoints n p with
      | error e => rw [hk] at h; simp at h
      | ok u =>
        rw [hk] at h
        simp only [Except.ok.injEq] at h
        exact h.symm
    · rw [hacc] at h; simp at h

theorem getD_lt_of_pairwise {p : List ℝ} (h : p.Pairwise (· < ·)) {i j : Nat} (hij : i < j)
    (hj : j < p.length) : p.getD i 0 < p.getD j 0 := by
  have := List.pairwise_iff_getElem.mp h i j (by omega) hj hij
  simpa [hj, (by omega : i < p.length)] using this

theorem getD_le_of_pairwise {p : List ℝ} (h : p.Pairwise (· < ·)) {i j : Nat} (hij : i ≤ j)
    (hj : j < p.length) : p.getD i 0 ≤ p.getD j 0 := by
  rcases Nat.lt_or_ge i j with h' | h'
  · exact (getD_lt_of_pairwise h h' hj).le
  · have : i = j := by omega
    rw [this]

/-- The flat mesh is the first point followed by the interior-and-end points of every interval. -/
theorem flat_eq {taus : List ℝ} (hr : GoodRel taus) {n : Nat} (hn : 1 ≤ n) (p : List ℝ) :
    flatMesh ((List.range n).map fun (i : Nat) =>
        taus.map fun t => p.getD i 0 + t * (p.getD (i + 1) 0 - p.getD i 0)) =
      .ok (p.getD 0 0 :: (List.range n).flatMap fun (i : Nat) =>
        taus.tail.map fun t => p.getD i 0 + t * (p.getD (i + 1) 0 - p.getD i 0)) := by
  obtain ⟨k, rfl⟩ : ∃ k, n = k + 1 := ⟨n - 1, by omega⟩
  obtain ⟨taus', rfl⟩ : ∃ r, taus = 0 :: r := by
    cases taus with
    | nil => have := hr.two; simp at this
    | cons a r => have := hr.first; simp at this; exact ⟨r, by rw [this]⟩
  rw [List.range_succ_eq_map]
  simp only [List.map_cons, flatMesh, List.map_map, List.flatMap_map, List.flatMap_cons, List.tail_cons,
    Function.comp_def, zero_mul, add_zero, List.cons_append]

/-- **C23 (mesh).** For every accepted or default set of interval points, every scheme whose relative points
increase from 0 to 1, and at least one interval, the normalized mesh has one point per stage
(`num_intervals * (stages_per_interval - 1) + 1`), is strictly increasing, starts at the first and ends at the last
interval point; the interval lengths are the (positive) differences of consecutive interval points and add up
to the difference of the end points. -/
theorem C23_mesh {interp : Option (List ℝ)} (hr : GoodRel (relPoints interp)) {n : Nat} (hn : 1 ≤ n)
    {pts : Option (List ℝ)} {mesh : List (List ℝ)} (h : setMesh interp n pts = .ok mesh) :
    ∃ flat lens, flatMesh mesh = .ok flat ∧ intervalLengths mesh = .ok lens ∧
      flat.length = n * ((relPoints interp).length - 1) + 1 ∧
      flat.Pairwise (· < ·) ∧
      flat.head? = (pointsOf n pts).head? ∧ flat.getLast? = (pointsOf n pts).getLast? ∧
      lens.length = n ∧
      (∀ i, i < n → lens.getD i 0 = (pointsOf n pts).getD (i + 1) 0 - (pointsOf n pts).getD i 0) ∧
      (∀ l ∈ lens, 0 < l) ∧
      lens.sum = (pointsOf n pts).getD n 0 - (pointsOf n pts).getD 0 0 := by
  obtain ⟨hmesh, hlen, hinc⟩ := setMesh_points hn h
  set p := pointsOf n pts with hp
  set taus := relPoints interp with htaus
  have hmesh' : mesh = (List.range n).map fun (i : Nat) =>
        taus.map fun t => p.getD i 0 + t * (p.getD (i + 1) 0 - p.getD i 0) := by
    rw [hmesh]
    apply List.map_congr_left
    intro i _
    exact intervalMesh_eq interp p i
  obtain ⟨r, hr0⟩ : ∃ r, taus = 0 :: r := by
    cases ht : taus with
    | nil => have := hr.two; simp [ht] at this
    | cons a r => have := hr.first; simp [ht] at this; exact ⟨r, by rw [this]⟩
  have hrpos : ∀ t ∈ r, 0 < t := by
    have := hr.incr
    rw [hr0, List.pairwise_cons] at this
    exact this.1
  have hrne : r ≠ [] := by
    intro e; have := hr.two; rw [hr0, e] at this; simp at this
  have hrlast : r.getLast? = some 1 := by
    have := hr.last
    rw [← List.getLast?_eq_getElem?, hr0, List.getLast?_cons_of_ne_nil hrne] at this
    exact this
  have hrle : ∀ t ∈ r, t ≤ 1 := by
    intro t ht
    have hpw : r.Pairwise (· < ·) := by
      have := hr.incr
      rw [hr0, List.pairwise_cons] at this
      exact this.2
    obtain ⟨k, hk⟩ := List.mem_iff_getElem?.mp ht
    have hkl := (List.getElem?_eq_some_iff.mp hk).1
    have h1 : r.getD k 0 = t := by simp [hk]
    have h2 : r.getD (r.length - 1) 0 = 1 := by
      rw [List.getLast?_eq_getElem?] at hrlast
      simp [hrlast]
    rw [← h1, ← h2]
    exact getD_le_of_pairwise hpw (by omega) (by omega)
  have hflat := flat_eq hr hn p
  have hpos : ∀ i, i < n → p.getD i 0 < p.getD (i + 1) 0 := fun i hi =>
    getD_lt_of_pairwise hinc (by omega) (by omega)
  rw [← hmesh'] at hflat
  rw [hr0, List.tail_cons] at hflat
  have hlens : intervalLengths mesh = .ok ((List.range n).map fun (i : Nat) => p.getD (i + 1) 0 - p.getD i 0) := by
    unfold intervalLengths
    rw [if_neg (by rw [hmesh']; simp; omega), hmesh', List.map_map]
    congr 1
    apply List.map_congr_left
    intro i _
    have hlast : taus[taus.length - 1]? = some 1 := hr.last
    have hfirst : taus[0]? = some 0 := hr.first
    simp [hlast, hfirst]
  refine ⟨_, _, hflat, hlens, ?_, ?_, ?_, ?_, by simp, ?_, ?_, ?_⟩
  · rw [hr0]
    simp [List.length_flatMap]
  · rw [List.pairwise_cons]
    constructor
    · intro y hy
      obtain ⟨i, hi, hy⟩ := List.mem_flatMap.mp hy
      obtain ⟨t, ht, rfl⟩ := List.mem_map.mp hy
      have hi := List.mem_range.mp hi
      have h1 := getD_le_of_pairwise hinc (Nat.zero_le i) (by omega)
      have h2 := mul_pos (hrpos t ht) (sub_pos.mpr (hpos i hi))
      linarith
    · rw [List.pairwise_flatMap]
      constructor
      · intro i hi
        have hi := List.mem_range.mp hi
        rw [List.pairwise_map]
        have hpw : r.Pairwise (· < ·) := by
          have := hr.incr
          rw [hr0, List.pairwise_cons] at this
          exact this.2
        refine hpw.imp ?_
        intro a b hab
        have := mul_lt_mul_of_pos_right hab (sub_pos.mpr (hpos i hi))
        linarith
      · refine List.Pairwise.imp_of_mem ?_ List.pairwise_lt_range
        intro i j hi hj hij x hx y hy
        have hi := List.mem_range.mp hi
        have hj := List.mem_range.mp hj
        obtain ⟨t, ht, rfl⟩ := List.mem_map.mp hx
        obtain ⟨u, hu, rfl⟩ := List.mem_map.mp hy
        have h1 := getD_le_of_pairwise hinc (i := i + 1) (j := j) (by omega) (by omega)
        have h2 := mul_pos (hrpos u hu) (sub_pos.mpr (hpos j hj))
        have h3 := mul_le_mul_of_nonneg_right (hrle t ht) (sub_pos.mpr (hpos i hi)).le
        linarith
  · cases hpc : p with
    | nil => rw [hpc] at hlen; simp at hlen
    | cons a q => simp
  · obtain ⟨k, rfl⟩ : ∃ k, n = k + 1 := ⟨n - 1, by omega⟩
    have hne : (List.map (fun t => p.getD k 0 + t * (p.getD (k + 1) 0 - p.getD k 0)) r) ≠ [] := by
      simpa using hrne
    have e1 : (p.getD 0 0 :: (List.range (k + 1)).flatMap fun (i : Nat) =>
        r.map fun t => p.getD i 0 + t * (p.getD (i + 1) 0 - p.getD i 0)) =
        (p.getD 0 0 :: (List.range k).flatMap fun (i : Nat) =>
        r.map fun t => p.getD i 0 + t * (p.getD (i + 1) 0 - p.getD i 0)) ++
        r.map (fun t => p.getD k 0 + t * (p.getD (k + 1) 0 - p.getD k 0)) := by
      rw [List.range_succ, List.flatMap_append]
      simp
    rw [e1, List.getLast?_append_of_ne_nil _ hne, List.getLast?_map, hrlast, List.getLast?_eq_getElem?, hlen]
    simp [(by omega : k + 1 < p.length)]
  · intro i hi
    simp [hi]
  · intro l hl
    obtain ⟨i, hi, rfl⟩ := List.mem_map.mp hl
    exact sub_pos.mpr (hpos i (List.mem_range.mp hi))
  · clear hflat hlens hmesh hmesh' h
    have : ∀ k, ((List.range k).map fun (i : Nat) => p.getD (i + 1) 0 - p.getD i 0).sum = p.getD k 0 - p.getD 0 0 := by
      intro k
      induction k with
      | zero => simp
      | succ k ih =>
        rw [List.range_succ, List.map_append, List.sum_append, ih]
        simp
    exact this n

/-- **C23 (physical mesh).** The mesh of the problem is the normalized mesh times the mesh scale; for a positive
scale it is strictly increasing. -/
theorem C23_scaled_mesh {interp : Option (List ℝ)} (hr : GoodRel (relPoints interp)) {n : Nat} (hn : 1 ≤ n)
    {pts : Option (List ℝ)} {mesh : List (List ℝ)} (h : setMesh interp n pts = .ok mesh) {scale : ℝ}
    (hs : 0 < scale) :
    ∃ flat phys, flatMesh mesh = .ok flat ∧ meshFromScale mesh scale = .ok phys ∧
      phys.length = flat.length ∧ phys.Pairwise (· < ·) ∧ ∀ k, phys.getD k 0 = flat.getD k 0 * scale := by
  obtain ⟨flat, lens, hf, _, _, hpw, _⟩ := C23_mesh hr hn h
  refine ⟨flat, flat.map (· * scale), hf, ?_, by simp, ?_, ?_⟩
  · simp [meshFromScale, hf, bind, Except.bind, pure, Except.pure]
  · rw [List.pairwise_map]
    exact hpw.imp (fun hab => mul_lt_mul_of_pos_right hab hs)
  · intro k
    by_cases hk : k < flat.length
    · simp [hk]
    · simp [Nat.le_of_not_lt hk]

/-- With no intervals the mesh properties raise ValueError. -/
theorem C23_no_intervals (interp : Option (List ℝ)) :
    ∃ mesh, setMesh interp 0 none = .ok mesh ∧ flatMesh mesh = .error .valueError ∧
      intervalLengths mesh = .error .valueError := by
  refine ⟨[], ?_, rfl, ?_⟩
  · simp [setMesh]
  · simp [intervalLengths]

/-- Non-vacuity: three uneven intervals, both kinds of scheme. -/
example : ∃ mesh, setMesh (some [0, 1 / 3, 1]) 3 (some [0, 1 / 4, 1 / 2, 1]) = .ok mesh := by
  have := C23_acceptance (some [0, 1 / 3, 1]) 3 [0, 1 / 4, 1 / 2, 1]
  rw [if_pos] at this
  · exact this
  · refine ⟨by simp, by norm_num, by norm_num, ?_⟩
    simp only [List.pairwise_cons, List.mem_cons, List.not_mem_nil, or_false, forall_eq_or_imp, forall_eq]
    norm_num

example : GoodRel (relPoints (some [0, 1 / 3, 1])) := by
  refine ⟨by simp [relPoints], by simp [relPoints], by simp [relPoints], ?_⟩
  simp only [relPoints, Option.getD_some, List.pairwise_cons, List.mem_cons, List.not_mem_nil, or_false,
    forall_eq_or_imp, forall_eq]
  norm_num

end Lumos.Ocp
