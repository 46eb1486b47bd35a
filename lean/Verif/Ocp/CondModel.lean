import Verif.Ocp.ContModel
import Verif.Ocp.StageModel
import Verif.Ocp.AlgModel
/-!
# Model of the condensed formulation (scaled_mesh_ocp.py:206-470, 1251-1279)

The two stored components (`_con_storage`) are the stage constraints (`Verif.Ocp.StageModel`) and the continuity
constraints (`Verif.Ocp.ContModel`). They are taken out of the problem before `set_scales` runs, so their scales are 1
and the raw callables are used here. scipy sparse matrices are read as functions of row and column (`assemble`).
-/

namespace Lumos.Ocp

open Lumos DecVar DecVar.Layout Conv

/-- The parts of a condensed OCP: the lifted problem, the explicit model (for `num_states`, `num_implicit_res` and
`batched_forward`), the unit problem built from it and the flat normalised mesh. -/
structure CondOCP where
  o : OCP
  M : ExplicitModel
  u : UnitProblem
  mesh : List ℝ

namespace CondOCP

open OCP

/-- `new_x[idx] = 0` (scaled_mesh_ocp.py:212-213). -/
def zeroAt (x : List ℝ) (idx : List Nat) : List ℝ := idx.foldl (fun a i => a.set i 0) x

/-- `np.reshape(a, (n, -1))`. -/
def reshapeCols (n : Nat) (a : List ℝ) : Py (List (List ℝ)) :=
  if n = 0 then .error .valueError
  else if a.length % n = 0 then .ok (Np.reshapeRows n (a.length / n) a)
  else .error .valueError

/-- Field access on the decision-variable namedtuple. -/
def field (v : Vars ℝ) (g : String) : Py (List (List ℝ)) :=
  match v.stage.lookup g with
  | some m => .ok m
  | none => .error .attributeError

/-- `_condensed_constraints` (scaled_mesh_ocp.py:206-249). -/
noncomputable def constraints (c : CondOCP) (x : List ℝ) : Py (List ℝ) := do
  let L := c.o.L
  let v ← L.unflattenVar x
  let idx ← L.groupIndicesInDec "states_dot"
  let alg ← c.o.stageConstraints c.u c.mesh (zeroAt x idx)
  let alg ← reshapeCols L.numStages alg
  let sd := alg.map (·.take c.M.nx)
  let ms ← c.o.meshScale x
  let h := c.o.normLen.map (· * ms)
  let st ← field v "states"
  let X ← batchConv1d st L.nspi (L.nspi - 1)
  let Xd ← batchConv1d sd L.nspi (L.nspi - 1)
  let con : Nd ℝ := ⟨[L.numIntervals, L.nspi - 1, c.M.nx], fun idx =>
    let i := idx.getD 0 0
    let l := idx.getD 1 0
    let k := idx.getD 2 0
    c.o.sumStages (fun j => at3 X i j k * c.o.A l j) - c.o.sumStages (fun j => at3 Xd i j k * h.getD i 0 * c.o.B l j)⟩
  return ravel con ++ (alg.map (·.drop c.M.nx)).flatten

/-- `idx_xdot_eqs.ravel()` (scaled_mesh_ocp.py:259-264, 423-428). -/
def xdotEqs (c : CondOCP) : Py (List Nat) := do
  let t ← stackAndIncrement ⟨[c.M.nx], fun idx => (idx.getD 0 0 : Int)⟩ 0 c.o.L.numStages (c.M.numRes : Int)
  return (ravel t).map Int.toNat

/-- Number of continuity rows. -/
def numCont (c : CondOCP) : Nat := c.o.L.numIntervals * (c.o.L.nspi - 1) * c.M.nx

/-- `_make_chainrule_condensed_jacobian` (scaled_mesh_ocp.py:251-288) as a matrix. `b_not_states_dot_eq` selects the
rows that are not in `idx_xdot_eqs`, in order. -/
noncomputable def chainrule (c : CondOCP) (idxSd idxEq : List Nat) (cont alg : Nat → Nat → ℝ) (r col : Nat) : ℝ :=
  let dcontVar := cont r col + ((List.range idxEq.length).map fun (a : Nat) =>
    cont r (idxSd.getD a 0) * alg (idxEq.getD a 0) col).sum
  let keepRows := (List.range (c.o.L.numStages * c.M.numRes)).filter (fun (i : Nat) => decide (i ∉ idxEq))
  if r < c.numCont then dcontVar else alg (keepRows.getD (r - c.numCont) 0) col

/-- `get_csc_jacobian` of the stored stage constraints (nlp.py:135-141). -/
noncomputable def algJac (c : CondOCP) (x : List ℝ) : Py (Nat → Nat → ℝ) := do
  let st ← c.o.stageJacStructure c.u
  let vals ← c.o.stageJacobian c.u c.mesh x
  return assemble st.1 st.2 vals

/-- `get_csc_jacobian` of the stored continuity constraints (nlp.py:135-141). -/
noncomputable def contJac (c : CondOCP) (x : List ℝ) : Py (Nat → Nat → ℝ) := do
  let st ← c.o.contJacStructure
  let vals ← c.o.contJacobian x
  return assemble (st.1.map Int.toNat) (st.2.map Int.toNat) vals

/-- `op.flatten_var(...)` with the model's state derivatives (scaled_mesh_ocp.py:302-317). `batched_forward` applies
the model row by row (see C31 for the mapping). -/
noncomputable def withModelDot (c : CondOCP) (x : List ℝ) : Py (List ℝ) := do
  let L := c.o.L
  let v ← L.unflattenVar x
  let st ← field v "states"
  let inp ← field v "inputs"
  let co ← field v "con_outputs"
  let ms ← c.o.meshScale x
  let dot := List.zipWith (fun (p : List ℝ × List ℝ) m => c.M.f p.1 p.2 m) (st.zip inp) (c.mesh.map (· * ms))
  L.flattenVar ⟨[("states", st), ("inputs", inp), ("con_outputs", co), ("states_dot", dot)], v.glob⟩

/-- The matrix inside `_condensed_jacobian` (scaled_mesh_ocp.py:290-319). -/
noncomputable def bigJac (c : CondOCP) (x : List ℝ) : Py (Nat → Nat → ℝ) := do
  let alg ← c.algJac x
  let x' ← if "mesh_scale" ∈ c.o.L.globals then c.withModelDot x else pure x
  let cont ← c.contJac x'
  let idxSd ← c.o.L.groupIndicesInDec "states_dot"
  let idxEq ← c.xdotEqs
  return c.chainrule idxSd idxEq cont alg

/-- `_condensed_jacobian` (scaled_mesh_ocp.py:290-327): the values read at the stored structure. -/
noncomputable def jacobian (c : CondOCP) (structure_ : List Nat × List Nat) (x : List ℝ) : Py (List ℝ) := do
  let big ← c.bigJac x
  return List.zipWith big structure_.1 structure_.2

/-- Number of condensed constraints (scaled_mesh_ocp.py:1262-1266). -/
def numCon (c : CondOCP) : Nat := c.numCont + c.o.L.numStages * (c.M.numRes - c.M.nx)

/-- `_condensed_jacobianstructure` (scaled_mesh_ocp.py:329-349) at the random point `x0`: all positions where the matrix
at `x0` (without replacing `states_dot`) is non-zero. scipy lists them in storage order; here row by row. -/
noncomputable def jacStructureAt (c : CondOCP) (x0 : List ℝ) : Py (List Nat × List Nat) := do
  let alg ← c.algJac x0
  let cont ← c.contJac x0
  let idxSd ← c.o.L.groupIndicesInDec "states_dot"
  let idxEq ← c.xdotEqs
  let big := c.chainrule idxSd idxEq cont alg
  let all := NLP.denseStructure c.numCon c.o.L.numDec
  let mask := by
    classical
    exact List.zipWith (fun r col => decide (big r col ≠ 0)) all.1 all.2
  return (keep mask all.1, keep mask all.2)

/-- The multipliers passed to the model-algebra Hessian, before stacking: `lagrange_condensed_converted` per interval
and stage (scaled_mesh_ocp.py:371-395), including the `+=` on shared stages. -/
noncomputable def converted (c : CondOCP) (h lagC : List ℝ) (i j k : Nat) : ℝ :=
  let m := c.o.L.nspi
  let raw := fun (i j k : Nat) => ((List.range (m - 1)).map fun (l : Nat) =>
    lagC.getD ((i * (m - 1) + l) * c.M.nx + k) 0 * (-c.o.B l j)).sum * h.getD i 0
  if i + 1 < c.o.L.numIntervals ∧ j = m - 1 then raw i j k + raw (i + 1) 0 k else raw i j k

/-- `lagrange_equivalent` (scaled_mesh_ocp.py:365-417): stage 0, then the stages `1..m-1` of every interval, each row
followed by the multipliers of the remaining model-algebra rows of the stage. -/
noncomputable def lagEquiv (c : CondOCP) (ms : ℝ) (lagC lagA : List ℝ) : Py (List ℝ) := do
  let m := c.o.L.nspi
  let h := c.o.normLen.map (· * ms)
  let row := fun (i j : Nat) => (List.range c.M.nx).map fun (k : Nat) => c.converted h lagC i j k
  let rows := row 0 0 :: (List.range c.o.L.numIntervals).flatMap fun (i : Nat) =>
    (List.range (m - 1)).map fun (j : Nat) => row i (j + 1)
  let algRows ← reshapeCols c.o.L.numStages lagA
  if rows.length ≠ algRows.length then .error .valueError     -- np.hstack
  else return (List.zipWith (· ++ ·) rows algRows).flatten

/-- `_condensed_hessian` (scaled_mesh_ocp.py:351-455). The reshape of the continuity multipliers raises ValueError when
there are too few of them. -/
noncomputable def hessian (c : CondOCP) (x lagrange : List ℝ) : Py (List ℝ) := do
  let lagC := lagrange.take c.numCont
  let lagA := lagrange.drop c.numCont
  let ms ← c.o.meshScale x
  if lagC.length ≠ c.numCont then .error .valueError
  else
    let lagEq ← c.lagEquiv ms lagC lagA
    let hess ← c.o.stageHessian c.u c.mesh x lagEq
    if "mesh_scale" ∈ c.o.L.globals then
      let hst ← c.o.contHessStructure
      let hv ← c.o.contHessian x lagC
      let contHess := assemble (hst.1.map Int.toNat) (hst.2.map Int.toNat) hv
      let alg ← c.algJac x
      let idxSd ← c.o.L.groupIndicesInDec "states_dot"
      let idxEq ← c.xdotEqs
      -- dxdot_dvar.T @ continuity_hess[idx_states_dot, -1]
      let newVals := (List.range c.o.L.numDec).map fun (p : Nat) => ((List.range idxEq.length).map fun (a : Nat) =>
        alg (idxEq.getD a 0) p * contHess (idxSd.getD a 0) (c.o.L.numDec - 1)).sum
      return hess ++ zeroAt newVals idxSd
    else return hess

/-- `_condensed_hessianstructure` (scaled_mesh_ocp.py:457-470). -/
def hessStructure (c : CondOCP) : Py (List Nat × List Nat) := do
  let st ← c.o.stageHessStructure c.u
  if "mesh_scale" ∈ c.o.L.globals then
    return (st.1 ++ List.range c.o.L.numDec, st.2 ++ (List.range c.o.L.numDec).map fun _ => c.o.L.numDec - 1)
  else return st

end CondOCP

end Lumos.Ocp
