import Verif.Gen.Finding
import Verif.Aero.Props
import Verif.Cas.ArrModel
/-!
# C96: the data-driven aerodynamic models in generated code

`gp` and `mlp` (lumos/models/ml.py:6-39) evaluated by casadi, with the parameters that arrive there (aero.py:49-57, 107-121).
-/

namespace Lumos.Trees.Gen

open Lumos Lumos.Trees Lumos.Trees.Tree

/-! ### Model -/

/-- A casadi matrix as the array functions see it. -/
def CMat.toMx (m : CMat) : Cas.Mx := ⟨m.rows, m.cols, fun i j => m.data.getD (i + j * m.rows) 0⟩

/-- A vector (`make_vector` under casadi, base.py:243-262): one column. -/
def column (x : List ℝ) : Cas.Mx := ⟨x.length, 1, fun i _ => x.getD i 0⟩

/-- The entries `coeff[idx]` of a column. -/
def entries (c : Cas.Mx) : List ℝ := (List.range c.rows).map fun i => c.at' i 0

/-- `gp(x, gp_points, alpha)` under casadi (ml.py:6-29). -/
noncomputable def gpCas (x : List ℝ) (points alpha : CMat) : Py (List ℝ) := do
  let d ← Cas.elementwise (· - ·) points.toMx (Cas.vectorTile (column x) points.rows)
  let s ← Cas.sum (d.map (· ^ 2)) (some 1)
  let c ← Cas.matmul alpha.toMx (s.map fun t => Real.exp (-t))
  return entries c

/-- The loop of `mlp` under casadi (ml.py:35-37). -/
noncomputable def mlpLoop (y : Cas.Mx) : List CMat → Py Cas.Mx
  | [] => .ok y
  | w :: ws => (Cas.matmul w.toMx y).bind fun z => mlpLoop (z.map Real.tanh) ws

/-- `mlp(x, weights)` under casadi (ml.py:32-39). -/
noncomputable def mlpCas (x : List ℝ) (ws : List CMat) : Py (List ℝ) := (mlpLoop (column x) ws).bind fun y => .ok (entries y)

/-! ### Specification -/

/-- The matrix of a numpy array with two dimensions. -/
def matOf (a : NArr ℝ) : Aero.Mat :=
  match a.shape with
  | [r, c] => ⟨c, (List.range r).map fun i => fun j : Fin c => a.data.getD (i * c + j) 0⟩
  | _ => ⟨0, []⟩

/-! ### Proofs -/

theorem sum_zip {n : Nat} (f : Nat → ℝ) (v : List ℝ) (hv : v.length = n) (g : ℝ → ℝ → ℝ) :
    ((List.ofFn fun j : Fin n => f j).zipWith g v).sum = ∑ j ∈ Finset.range n, g (f j) (v.getD j 0) := by
  subst hv
  have e : v = List.ofFn fun i : Fin v.length => v.getD i 0 := by
    apply List.ext_getElem
    · simp
    · intro i h1 h2
      simp [List.getD_eq_getElem?_getD]
  conv_lhs => rw [show (List.ofFn fun j : Fin v.length => f j).zipWith g v =
    (List.ofFn fun j : Fin v.length => f j).zipWith g (List.ofFn fun i : Fin v.length => v.getD i 0) from by rw [← e]]
  rw [Aero.zipWith_ofFn, List.sum_ofFn, Fin.sum_univ_eq_sum_range (fun j => g (f j) (v.getD j 0))]

theorem mul_matOf {r c : Nat} {d : List ℝ} {v : List ℝ} (hv : v.length = c) :
    (matOf ⟨[r, c], d⟩).mul v = .ok ((List.range r).map fun i => ∑ j ∈ Finset.range c, d.getD (i * c + j) 0 * v.getD j 0) := by
  unfold Aero.Mat.mul matOf
  simp only
  rw [if_pos hv, List.map_map]
  congr 1
  apply List.map_congr_left
  intro i _
  exact sum_zip (fun j => d.getD (i * c + j) 0) v hv (· * ·)

theorem shows_getD {r c : Nat} {d : List ℝ} {m : CMat} (h : Shows ⟨[r, c], d⟩ m) : m.rows = r ∧ m.cols = c ∧
    ∀ i < r, ∀ j < c, m.toMx.at' i j = d.getD (i * c + j) 0 := by
  obtain ⟨_, h1, h2, h3⟩ := h
  refine ⟨h1, h2, fun i hi j hj => ?_⟩
  unfold CMat.toMx
  simp only [List.getD_eq_getElem?_getD]
  rw [h1, h3 i hi j hj]

/-- What casadi computes with matrices that show numpy's is what numpy computes. -/
theorem gpCas_eq {n k : Nat} {p a : NArr ℝ} {x : List ℝ} (hp : p.shape = [n, x.length]) (ha : a.shape = [k, n]) {P A : CMat} (hP : Shows p P) (hA : Shows a A) :
    gpCas x P A = Aero.gp x (matOf p) (matOf a) := by
  obtain ⟨sp, dp⟩ := p
  obtain ⟨sa, da⟩ := a
  simp only at hp ha
  subst hp ha
  obtain ⟨p1, p2, p3⟩ := shows_getD hP
  obtain ⟨a1, a2, a3⟩ := shows_getD hA
  have hker : Aero.kernel (matOf ⟨[n, x.length], dp⟩) x =
      .ok ((List.range n).map fun i => Real.exp (-∑ j ∈ Finset.range x.length, (dp.getD (i * x.length + j) 0 - x.getD j 0) ^ 2)) := by
    unfold Aero.kernel matOf
    simp only
    rw [if_pos (Or.inl trivial), List.map_map]
    congr 1
    apply List.map_congr_left
    intro i _
    simp only [Function.comp_apply]
    unfold Aero.rowSub
    rw [if_pos rfl, List.map_zipWith]
    rw [sum_zip (fun j => dp.getD (i * x.length + j) 0) x rfl fun a b => (a - b) ^ 2]
  unfold Aero.gp
  rw [hker]
  simp only [Except.bind]
  rw [mul_matOf (by simp)]
  unfold gpCas
  rw [Cas.elementwise, if_pos ⟨by simp [CMat.toMx, Cas.vectorTile, Cas.repmatRows, Cas.Mx.T, column],
    by simp [CMat.toMx, Cas.vectorTile, Cas.repmatRows, Cas.Mx.T, column, p2]⟩]
  simp only [bind, Except.bind, Cas.sum, if_true, Cas.sum2, Cas.Mx.map]
  simp only [show (1 : Int) = 0 ↔ False by decide, if_false]
  rw [Cas.matmul, if_pos (by simp only; rw [show A.toMx.cols = A.cols from rfl, show P.toMx.rows = P.rows from rfl, a2, p1])]
  simp only [pure, Except.pure, entries]
  rw [show A.toMx.rows = k from a1, show A.toMx.cols = n from a2, show P.toMx.cols = x.length from p2]
  congr 1
  apply List.map_congr_left
  intro i hi
  rw [List.mem_range] at hi
  apply Finset.sum_congr rfl
  intro l hl
  rw [Finset.mem_range] at hl
  rw [a3 i hi l hl, List.getD_eq_getElem?_getD (l := List.map _ _), List.getElem?_map, List.getElem?_range hl]
  simp only [Option.map_some, Option.getD_some]
  congr 3
  apply Finset.sum_congr rfl
  intro j hj
  rw [Finset.mem_range] at hj
  rw [p3 l hl j hj]
  simp [Cas.vectorTile, Cas.repmatRows, Cas.Mx.T, column]

theorem mlpLoop_eq : ∀ {as : List (NArr ℝ)} {ws : List CMat} {ss : List (Nat × Nat)} {n k : Nat} (y : Cas.Mx) (v : List ℝ),
    List.Forall₂ Shows as ws → as.map NArr.shape = ss.map (fun s => [s.1, s.2]) → Aero.Chain n ss k → v.length = n → y.rows = n → y.cols = 1 →
    (∀ i < n, y.at' i 0 = v.getD i 0) →
    (mlpLoop y ws).bind (fun y => .ok (entries y)) = Aero.mlp v (as.map fun a => .mat (matOf a))
  | [], _, ss, n, k, y, v, .nil, hs, hc, hv, hy, hy1, h => by
    simp only [mlpLoop, Except.bind, List.map_nil, Aero.mlp, entries]
    congr 1
    rw [hy]
    apply List.ext_getElem
    · simp [hv]
    · intro i h1 h2
      rw [List.getElem_map, List.getElem_range, h i (by simpa using h1)]
      simp [List.getD_eq_getElem?_getD, h2]
  | a :: as, w :: ws, [], n, k, y, v, .cons haw hrest, hs, hc, hv, hy, hy1, h => by simp at hs
  | a :: as, w :: ws, s :: ss, n, k, y, v, .cons haw hrest, hs, hc, hv, hy, hy1, h => by
    obtain ⟨sa, da⟩ := a
    simp only [List.map_cons, List.cons.injEq] at hs
    obtain ⟨hs1, hs2⟩ := hs
    subst hs1
    obtain ⟨hc1, hc2⟩ := hc
    subst hc1
    obtain ⟨w1, w2, w3⟩ := shows_getD haw
    rw [mlpLoop, List.map_cons, Aero.mlp, Aero.Val.mul, mul_matOf hv, Cas.matmul,
      if_pos (show w.toMx.cols = y.rows from by rw [hy]; exact w2)]
    simp only [Except.bind]
    refine mlpLoop_eq _ _ hrest hs2 hc2 (by simp) w1 hy1 ?_
    intro i hi
    rw [List.getD_eq_getElem?_getD, List.getElem?_map, List.getElem?_map, List.getElem?_range hi]
    simp only [Option.map_some, Option.getD_some, Cas.Mx.map]
    congr 1
    rw [show w.toMx.cols = s.2 from w2]
    apply Finset.sum_congr rfl
    intro j hj
    rw [Finset.mem_range] at hj
    rw [w3 i hi j hj, h j hj]

/-- What casadi computes with weights that show numpy's is what numpy computes. -/
theorem mlpCas_eq {as : List (NArr ℝ)} {ws : List CMat} {ss : List (Nat × Nat)} {x : List ℝ} {k : Nat} (h : List.Forall₂ Shows as ws)
    (hs : as.map NArr.shape = ss.map fun s => [s.1, s.2]) (hc : Aero.Chain x.length ss k) :
    mlpCas x ws = Aero.mlp x (as.map fun a => .mat (matOf a)) :=
  mlpLoop_eq _ _ h hs hc rfl rfl rfl fun _ _ => rfl

/-- **C96 (Gaussian process).** In generated code, the aerodynamic model "GPAero" under any path of the model computes, for given parameters `u`,
the coefficients of the Gaussian process with the points and weights refilled. -/
theorem C96_gp {u w : Tree Val} (h : Arrives refill u w) {path path' : String} {n k : Nat} {p a : NArr ℝ} {x : List ℝ}
    (hp : getParam u path = .ok (.val (.np p))) (ha : getParam u path' = .ok (.val (.np a))) (hps : p.shape = [n, x.length]) (has : a.shape = [k, n]) :
    ∃ P A, getParam w path = .ok (.val (.cas P)) ∧ getParam w path' = .ok (.val (.cas A)) ∧
      gpCas x P A = Aero.gp x (matOf (refill p)) (matOf (refill a)) := by
  obtain ⟨P, h1, h2⟩ := h.values _ _ hp
  obtain ⟨A, h3, h4⟩ := h.values _ _ ha
  refine ⟨P, A, h1, h3, gpCas_eq (n := n) (k := k) ?_ ?_ h2 h4⟩
  · unfold refill
    rw [hps]
  · unfold refill
    rw [has]

/-- **C96 (neural network).** In generated code, "MLPAero" under any path of the model computes, for given parameters `u`, the coefficients of the
network with the weights of every layer refilled. -/
theorem C96_mlp {u w : Tree Val} (h : Arrives refill u w) {paths : List String} {as : List (NArr ℝ)} {ss : List (Nat × Nat)} {x : List ℝ} {k : Nat}
    (hp : List.Forall₂ (fun p a => getParam u p = .ok (.val (.np a))) paths as) (hs : as.map NArr.shape = ss.map fun s => [s.1, s.2])
    (hc : Aero.Chain x.length ss k) :
    ∃ ws, List.Forall₂ (fun p W => getParam w p = .ok (.val (.cas W))) paths ws ∧ mlpCas x ws = Aero.mlp x (as.map fun a => .mat (matOf (refill a))) := by
  have key : ∃ ws, List.Forall₂ (fun p W => getParam w p = .ok (.val (.cas W))) paths ws ∧ List.Forall₂ Shows (as.map refill) ws := by
    clear hs hc
    induction hp with
    | nil => exact ⟨[], .nil, .nil⟩
    | cons h1 _ ih =>
      obtain ⟨ws, i1, i2⟩ := ih
      obtain ⟨W, h2, h3⟩ := h.values _ _ h1
      exact ⟨W :: ws, .cons h2 i1, .cons h3 i2⟩
  obtain ⟨ws, h1, h2⟩ := key
  refine ⟨ws, h1, ?_⟩
  have := mlpCas_eq (x := x) h2 (ss := ss) (k := k) ?_ hc
  · rw [this, List.map_map]
    rfl
  · rw [← hs, List.map_map]
    apply List.map_congr_left
    intro a ha
    have : ∃ r c, a.shape = [r, c] := by
      have : a.shape ∈ as.map NArr.shape := List.mem_map_of_mem ha
      rw [hs] at this
      obtain ⟨s, _, hs⟩ := List.mem_map.mp this
      exact ⟨_, _, hs.symm⟩
    obtain ⟨r, c, e⟩ := this
    simp only [Function.comp_apply]
    unfold refill
    rw [e]

/-! ### The witnesses -/

/-- A model that passes its inputs to "GPAero" and returns the coefficients. -/
noncomputable def gpRun (t : Tree Val) (_ i : List ℝ) (_ : ℝ) : Py (Io.Mdl.ArrayRet ℝ) :=
  match getParam t "gp_points", getParam t "alpha" with
  | .ok (.val (.np p)), .ok (.val (.np a)) => (Aero.gp i (matOf p) (matOf a)).bind fun c => .ok { outputs := c }
  | .ok (.val (.cas p)), .ok (.val (.cas a)) => (gpCas i p a).bind fun c => .ok { outputs := c }
  | _, _ => .error .typeError

/-- A model that passes its inputs to "MLPAero" with one layer and returns the coefficients. -/
noncomputable def mlpRun (t : Tree Val) (_ i : List ℝ) (_ : ℝ) : Py (Io.Mdl.ArrayRet ℝ) :=
  match getParam t "weights_layer_0" with
  | .ok (.val (.np w)) => (Aero.mlp i [.mat (matOf w)]).bind fun c => .ok { outputs := c }
  | .ok (.val (.cas w)) => (mlpCas i [w]).bind fun c => .ok { outputs := c }
  | _ => .error .typeError

theorem gp_lit (a : List ℝ) (h : a.length = 6) : Aero.gp [0, 0, 0] (matOf ⟨[2, 3], [0, 0, 0, 0, 0, 0]⟩) (matOf ⟨[3, 2], a⟩) =
    .ok [a.getD 0 0 + a.getD 1 0, a.getD 2 0 + a.getD 3 0, a.getD 4 0 + a.getD 5 0] := by
  match a, h with
  | [a0, a1, a2, a3, a4, a5], _ =>
    simp [Aero.gp, Aero.kernel, Aero.rowSub, Aero.Mat.mul, matOf, List.range_succ, Except.bind]

theorem mlp_lit (a : List ℝ) (h : a.length = 9) (x y z : ℝ) : Aero.mlp [x, y, z] [.mat (matOf ⟨[3, 3], a⟩)] =
    .ok [Real.tanh (a.getD 0 0 * x + a.getD 1 0 * y + a.getD 2 0 * z), Real.tanh (a.getD 3 0 * x + a.getD 4 0 * y + a.getD 5 0 * z),
      Real.tanh (a.getD 6 0 * x + a.getD 7 0 * y + a.getD 8 0 * z)] := by
  match a, h with
  | [a0, a1, a2, a3, a4, a5, a6, a7, a8], _ =>
    simp [Aero.mlp, Aero.Val.mul, Aero.Mat.mul, matOf, List.range_succ, Except.bind, add_assoc]

/-- The parameters of the Gaussian process: two points, and weights that give lift only. -/
def gpParams : List (String × PV Val) := [("gp_points", .val (.np ⟨[2, 3], [0, 0, 0, 0, 0, 0]⟩)), ("alpha", .val (.np ⟨[3, 2], [0, 0, 0, 0, 1, 0]⟩))]

/-- The parameters of the network: one layer that gives lift from the front ride height only. -/
def mlpParams : List (String × PV Val) := [("weights_layer_0", .val (.np ⟨[3, 3], [0, 0, 0, 0, 0, 0, 1, 0, 0]⟩))]

theorem gp_params_ok : Named .dict (Tree.node (.dict gpParams) []) ∧ AllNp (Tree.node (.dict gpParams) []) := by
  refine ⟨named_leaf (show ["gp_points", "alpha"].Nodup by decide) ?_, ?_⟩
  · intro kv hkv
    simp only [gpParams, List.mem_cons, List.not_mem_nil, or_false] at hkv
    rcases hkv with rfl | rfl <;> (simp only; decide +kernel)
  · intro p hp
    change p ∈ [(["gp_points"], _), (["alpha"], _)] at hp
    simp only [List.mem_cons, List.not_mem_nil, or_false] at hp
    rcases hp with rfl | rfl
    · exact ⟨_, rfl, rfl, by simp, by simp⟩
    · exact ⟨_, rfl, rfl, by simp, by simp⟩

theorem mlp_params_ok : Named .dict (Tree.node (.dict mlpParams) []) ∧ AllNp (Tree.node (.dict mlpParams) []) := by
  refine ⟨named_leaf (show ["weights_layer_0"].Nodup by decide) ?_, ?_⟩
  · intro kv hkv
    simp only [mlpParams, List.mem_cons, List.not_mem_nil, or_false] at hkv
    subst hkv
    simp only
    decide +kernel
  · intro p hp
    change p ∈ [(["weights_layer_0"], _)] at hp
    simp only [List.mem_cons, List.not_mem_nil, or_false] at hp
    subst hp
    exact ⟨_, rfl, rfl, by simp, by simp⟩

/-- **C96 (Gaussian process, finding).** A model with "GPAero" whose coefficients at the point of its data are Cx = Cy = 0, Cz = 1: in the code
generated from it, with its own parameters, they are Cx = Cz = 0, Cy = 1. -/
theorem C96_gp_wrong : ∃ m : Model, m.mod.WF ∧ Named .dict (Mod.getParams m.mod) ∧ AllNp (Mod.getParams m.mod) ∧
    (∀ s z, m.run (Mod.getParams m.mod) s [0, 0, 0] z = .ok { outputs := [0, 0, 1] }) ∧
    ∃ m' g y un, exportC m none = (m', .ok g) ∧ ravel (Mod.getParams m.mod) = .ok (y, un) ∧
      ∀ s z, g s [0, 0, 0] z y = .ok { outputs := [0, 1, 0] } := by
  have hg : getParam (Tree.node (.dict gpParams) []) "gp_points" = .ok (.val (.np ⟨[2, 3], [0, 0, 0, 0, 0, 0]⟩)) :=
    (getParam_leaf (by decide +kernel)).mpr rfl
  have ha : getParam (Tree.node (.dict gpParams) []) "alpha" = .ok (.val (.np ⟨[3, 2], [0, 0, 0, 0, 1, 0]⟩)) :=
    (getParam_leaf (by decide +kernel)).mpr rfl
  obtain ⟨hN, hU⟩ := gp_params_ok
  refine ⟨leafModel "M" gpParams gpRun, leafModel_wf _ _ _, hN, hU, fun s z => ?_, ?_⟩
  · change gpRun (Tree.node (.dict gpParams) []) s [0, 0, 0] z = _
    unfold gpRun
    rw [hg, ha]
    simp only
    rw [gp_lit _ rfl]
    simp [Except.bind]
  · obtain ⟨m', g, h1, _, _, h2⟩ := C96_export (leafModel "M" gpParams gpRun) (leafModel_wf _ _ _) hN hU
    obtain ⟨y, un, w, h3, h4, h5⟩ := h2 _ hN hU (alike_refl hN)
    refine ⟨m', g, y, un, h1, h3, fun s z => ?_⟩
    rw [h5]
    change gpRun w s [0, 0, 0] z = _
    obtain ⟨P, A, e1, e2, e3⟩ := C96_gp h4 (x := [0, 0, 0]) (n := 2) (k := 3) hg ha rfl rfl
    unfold gpRun
    rw [e1, e2]
    simp only
    rw [e3]
    rw [show refill ⟨[2, 3], [0, 0, 0, 0, 0, 0]⟩ = ⟨[2, 3], [0, 0, 0, 0, 0, 0]⟩ by simp [refill, List.range_succ],
      show refill ⟨[3, 2], [0, 0, 0, 0, 1, 0]⟩ = ⟨[3, 2], [0, 0, 0, 1, 0, 0]⟩ by simp [refill, List.range_succ], gp_lit _ rfl]
    simp [Except.bind]

/-- **C96 (neural network, finding).** A model with "MLPAero" whose lift coefficient is the tanh of the front ride height, the others being zero: in the
code generated from it, with its own parameters, the drag coefficient is the tanh of the yaw angle and the others are zero. -/
theorem C96_mlp_wrong : ∃ m : Model, m.mod.WF ∧ Named .dict (Mod.getParams m.mod) ∧ AllNp (Mod.getParams m.mod) ∧
    (∀ s z front rear yaw, m.run (Mod.getParams m.mod) s [front, rear, yaw] z = .ok { outputs := [0, 0, Real.tanh front] }) ∧
    ∃ m' g y un, exportC m none = (m', .ok g) ∧ ravel (Mod.getParams m.mod) = .ok (y, un) ∧
      ∀ s z front rear yaw, g s [front, rear, yaw] z y = .ok { outputs := [Real.tanh yaw, 0, 0] } := by
  have hg : getParam (Tree.node (.dict mlpParams) []) "weights_layer_0" = .ok (.val (.np ⟨[3, 3], [0, 0, 0, 0, 0, 0, 1, 0, 0]⟩)) :=
    (getParam_leaf (by decide +kernel)).mpr rfl
  obtain ⟨hN, hU⟩ := mlp_params_ok
  refine ⟨leafModel "M" mlpParams mlpRun, leafModel_wf _ _ _, hN, hU, fun s z a b c => ?_, ?_⟩
  · change mlpRun (Tree.node (.dict mlpParams) []) s [a, b, c] z = _
    unfold mlpRun
    rw [hg]
    simp only
    rw [mlp_lit _ rfl]
    simp [Except.bind]
  · obtain ⟨m', g, h1, _, _, h2⟩ := C96_export (leafModel "M" mlpParams mlpRun) (leafModel_wf _ _ _) hN hU
    obtain ⟨y, un, w, h3, h4, h5⟩ := h2 _ hN hU (alike_refl hN)
    refine ⟨m', g, y, un, h1, h3, fun s z a b c => ?_⟩
    rw [h5]
    change mlpRun w s [a, b, c] z = _
    obtain ⟨ws, e1, e2⟩ := C96_mlp h4 (x := [a, b, c]) (ss := [(3, 3)]) (k := 3) (.cons hg .nil) rfl ⟨rfl, rfl⟩
    obtain ⟨W, _, e3, e4, rfl⟩ := List.forall₂_cons_left_iff.mp e1
    cases e4
    unfold mlpRun
    rw [e3]
    simp only
    rw [e2, List.map_cons, List.map_nil]
    rw [show refill ⟨[3, 3], [0, 0, 0, 0, 0, 0, 1, 0, 0]⟩ = ⟨[3, 3], [0, 0, 1, 0, 0, 0, 0, 0, 0]⟩ by simp [refill, List.range_succ], mlp_lit _ rfl]
    simp [Except.bind]

end Lumos.Trees.Gen
