import Verif.Use.Fresh
import Verif.Ocp.BuildExample
/-!
# C97: a history that meets the hypotheses

The model `time_dot = k u`, `p = 2 time` with the parameter `k`, on a fixed mesh with cyclic constraints.
-/

namespace Lumos.Use

open Lumos DecVar DecVar.Layout NLP Bounds Ocp OCP

noncomputable def gainModel (k : ℝ) : ExplicitModel :=
  { states := ["time"], inputs := ["u"], conOutputs := ["p"], residuals := []
    f := fun _ u _ => [k * u.getD 0 0]
    h := fun x _ _ => [2 * x.getD 0 0]
    r := fun _ _ _ => [] }

theorem gainModel_good (k : ℝ) : (gainModel k).Good :=
  ⟨by show 0 < 1; decide, by simp [gainModel], by simp [gainModel], by simp [gainModel], fun _ _ _ _ _ => rfl, fun _ _ _ _ _ => rfl,
    fun _ _ _ _ _ => rfl⟩

noncomputable def gainD (k : ℝ) (_ : List ℝ) (_ : ℝ) : Nat → Nat → ℝ
  | 0, 1 => k
  | 0, 2 => -1
  | 1, 0 => 2
  | 1, 3 => -1
  | _, _ => 0

theorem gainFlat (k a b c d μ : ℝ) : (gainModel k).flatImplicit [a, b, c, d] μ = [k * b - c, 2 * a - d] := by
  rw [ExplicitModel.flatImplicit_eq (gainModel_good k) rfl]
  simp [gainModel, ExplicitModel.rhs, ExplicitModel.xOf, ExplicitModel.uOf, ExplicitModel.wOf, ExplicitModel.nx, ExplicitModel.nu]

theorem gainDense (k : ℝ) : (gainModel k).DenseJac (gainD k) := by
  intro v μ hv _ r hr j hj
  obtain ⟨a, b, c, d, rfl⟩ := ExplicitModel.four hv
  have hr : r < 2 := hr
  have hj : j < 4 := hj
  interval_cases r <;> interval_cases j <;>
    simp only [List.set_cons_zero, List.set_cons_succ, gainFlat, List.getD_cons_zero, List.getD_cons_succ, gainD]
  · exact hasDerivAt_const _ _
  · simpa using ((hasDerivAt_id b).const_mul k).sub_const c
  · simpa using (hasDerivAt_id c).const_sub (k * b)
  · exact hasDerivAt_const _ _
  · simpa using ((hasDerivAt_id a).const_mul 2).sub_const d
  · exact hasDerivAt_const _ _
  · exact hasDerivAt_const _ _
  · simpa using (hasDerivAt_id d).const_sub (2 * a)

theorem gainDense2 (k : ℝ) : (gainModel k).DenseHess linD2 := by
  intro v lam μ hv hlam _
  have hl2 : lam.length = 2 := hlam
  obtain ⟨p, q, rfl⟩ : ∃ p q, lam = [p, q] := by
    match lam, hl2 with
    | [p, q], _ => exact ⟨p, q, rfl⟩
  refine IsHessianAt.of_global hv ⟨fun _ i => match i with
    | 0 => 2 * q
    | 1 => p * k
    | 2 => -p
    | _ => -q, ?_, ?_⟩
  · intro y hy j hj
    obtain ⟨a, b, c, d, rfl⟩ := ExplicitModel.four hy
    have hj : j < 4 := hj
    interval_cases j <;>
      simp only [List.set_cons_zero, List.set_cons_succ, gainFlat, List.getD_cons_zero, List.getD_cons_succ, dot,
        List.zipWith_cons_cons, List.zipWith_nil_left, List.sum_cons, List.sum_nil, add_zero]
    · refine HasDerivAt.congr_deriv (((((hasDerivAt_id a).const_mul 2).sub_const d).const_mul q).const_add _) ?_
      simp; ring
    · refine HasDerivAt.congr_deriv (((((hasDerivAt_id b).const_mul k).sub_const c).const_mul p).add_const _) ?_
      simp
    · refine HasDerivAt.congr_deriv ((((hasDerivAt_id c).const_sub (k * b)).const_mul p).add_const _) ?_
      simp
    · refine HasDerivAt.congr_deriv ((((hasDerivAt_id d).const_sub (2 * a)).const_mul q).const_add _) ?_
      simp
  · intro i j _ _ _
    exact hasDerivAt_const _ _

/-- The kind: jax and exact Hessians, constructed with the mesh scale 2. -/
noncomputable def exKind : Kind ℝ :=
  { S := exSetup false, model := gainModel, unit := fun k => (gainModel k).unitOf (gainD k) linD2, jax := true, exact := true }

/-- Any mesh scale and any gain. -/
def exV (ms : Option ℝ) (_ : ℝ) : Prop := ms ≠ none

theorem exKind_good : exKind.Good exV (fun _ _ _ => True) := by
  refine ⟨fun ms k hms => ?_, fun _ _ _ _ _ _ => rfl⟩
  obtain ⟨ms, rfl⟩ := Option.ne_none_iff_exists'.mp hms
  have h := exSetup_good false
  have hc := linCond_good
  refine ⟨⟨⟨⟨hc.stage.made, hc.stage.fields, hc.stage.stages, hc.stage.intervals, hc.stage.states, hc.stage.statesDot, hc.stage.same,
      hc.stage.pos, hc.stage.lens, ?_⟩, hc.stage.width, hc.stage.points⟩, gainModel_good k, rfl, rfl, rfl, rfl, hc.sizeX, hc.sizeU,
      hc.sizeY⟩, ExplicitModel.unitOf_jac (gainModel_good k) (gainDense k) _, unitOf_upper (gainModel_good k) (gainDense k) (gainDense2 k),
    Or.inl ?_, ?_, ?_, ?_, fun _ => h.time (by simp [exSetup, linCond]), h.dotless, h.excluded, h.someCyclic, fun e => (nomatch e),
    h.known, h.nonzero, h.bounds⟩
  · simp [Kind.at, exKind, exSetup, linCond]
  · simp [Kind.at, exKind, exSetup, linCond]
  · simp [Kind.at, exKind, exSetup]
  · simp [Kind.at, exKind, exSetup]
  · simp [Kind.at, exKind]

theorem getD_set {n j : Nat} {y : List ℝ} (hy : y.length = n) (hj : j < n) (i : Nat) (t : ℝ) :
    (y.set j t).getD i 0 = if i = j then t else y.getD i 0 := by
  by_cases h : i = j
  · subst h
    simp [List.getD_eq_getElem?_getD, hy, hj]
  · rw [if_neg h, List.getD_eq_getElem?_getD, List.getElem?_set_ne (Ne.symm h), List.getD_eq_getElem?_getD]

theorem getD_unit {n : Nat} (i : Nat) (hn : i < n) (j : Nat) (a : ℝ) : ((List.replicate n (0 : ℝ)).set i a).getD j 0 = if j = i then a else 0 := by
  rw [getD_set (n := n) (by simp) hn]
  split
  · rfl
  · rw [List.getD_eq_getElem?_getD, List.getElem?_replicate]
    split <;> rfl

/-- An objective `x₀²`. -/
noncomputable def sqObj (n : Nat) : Obj :=
  Obj.stateOf n (fun y => y.getD 0 0 ^ 2) (fun y => (List.replicate n 0).set 0 (2 * y.getD 0 0)) (fun _ => [2]) ([0], [0])
    (List.replicate n 1)

theorem sqObj_good {n : Nat} (hn : 0 < n) : GoodObj n (List.replicate n 1) (sqObj n) := by
  refine ⟨_, _, _, _, rfl, ⟨by simp [StructIn, hn], ?_⟩, ones_good n⟩
  have hgrad : ∀ y : List ℝ, y.length = n → IsGradientAt n (fun y => y.getD 0 0 ^ 2) y
      (fun j => ((List.replicate n 0).set 0 (2 * y.getD 0 0)).getD j 0) := by
    intro y hy j hj
    simp only [getD_unit 0 hn, getD_set hy hj]
    by_cases h0 : j = 0
    · subst h0
      simpa using hasDerivAt_pow 2 (y.getD 0 0)
    · simp only [if_neg (Ne.symm h0), if_neg h0]
      exact hasDerivAt_const _ _
  intro y hy
  refine ⟨by simp, fun _ => hgrad y hy, rfl, fun _ => IsHessianAt.of_global hy ⟨_, hgrad, ?_⟩⟩
  intro i j hi hj hij
  simp only [getD_unit 0 hn, getD_set hy hj]
  by_cases h0 : i = 0
  · subst h0
    by_cases h1 : j = 0
    · subst h1
      simpa [assemble] using (hasDerivAt_id (y.getD 0 0)).const_mul 2
    · have : assemble [0] [0] [(2 : ℝ)] 0 j = 0 := by simp [assemble, Ne.symm h1]
      simp only [if_neg (Ne.symm h1), this]
      exact hasDerivAt_const _ _
  · have : assemble [0] [0] [(2 : ℝ)] i j = 0 := by simp [assemble, Ne.symm h0]
    simp only [if_neg h0, this]
    exact hasDerivAt_const _ _

/-- A constraint `x₁ = 1`. -/
noncomputable def oneCons (n : Nat) : Cons :=
  Cons.stateOf n 1 (fun y => [y.getD 1 0 - 1]) (fun _ => [1]) (fun _ _ => []) ([0], [1]) ([], [])
    (List.replicate n 1) (List.replicate 1 1)

theorem oneCons_good {n : Nat} (hn : 1 < n) : GoodCons n (List.replicate n 1) (oneCons n) := by
  refine ⟨_, _, _, _, _, _, rfl, ⟨by simp [StructIn, hn, oneCons, Cons.stateOf], ?_⟩, ⟨by simp [StructIn], ?_⟩, ones_good n, ones_good 1⟩
  · intro y hy
    refine ⟨by simp [oneCons, Cons.stateOf], rfl, ?_⟩
    intro _ r hr j hj
    have hr : r = 0 := by
      have : r < 1 := hr
      omega
    subst hr
    simp only [List.getD_cons_zero, getD_set hy hj]
    by_cases h1 : j = 1
    · subst h1
      simpa [assemble] using (hasDerivAt_id (y.getD 1 0)).sub_const 1
    · have : assemble [0] [1] [(1 : ℝ)] 0 j = 0 := by simp [assemble, Ne.symm h1]
      simp only [if_neg (Ne.symm h1), this]
      exact hasDerivAt_const _ _
  · intro y lam hy hlam
    refine ⟨rfl, fun _ => IsHessianAt.of_global hy ⟨fun _ j => if j = 1 then lam.getD 0 0 else 0, ?_, ?_⟩⟩
    · intro z hz j hj
      obtain ⟨l, rfl⟩ : ∃ l, lam = [l] := List.length_eq_one_iff.mp hlam
      simp only [dot, List.zipWith_cons_cons, List.zipWith_nil_left, List.sum_cons, List.sum_nil, add_zero, getD_set hz hj,
        List.getD_cons_zero]
      by_cases h1 : j = 1
      · subst h1
        simpa using ((hasDerivAt_id (z.getD 1 0)).sub_const 1).const_mul l
      · simp only [if_neg (Ne.symm h1), if_neg h1]
        exact hasDerivAt_const _ _
    · intro i j _ _ _
      simpa [assemble] using hasDerivAt_const _ _

/-- A history: another mesh scale, gain and scales, a solve, a constraint and an objective, the cyclic constraint deleted, the
structure queried, the limits set, bounds, an evaluation, and a solve. -/
noncomputable def exCalls (a a' : SolveArgs) (x : List ℝ) : List (Call ℝ) :=
  [.setMeshScale 3, .setParams 5, .setScales [⟨"inputs", "u", 7⟩], .solve a, .addConstraints "one" (oneCons 28),
   .addObjective "sq" (sqObj 28), .addObjective "sq" (sqObj 28), .deleteConstraints "cyclic", .hessianstructure, .setCons,
   .bounds (.updateBounds [⟨"inputs", "u", .scalar 0, .scalar 4⟩]), .hessian x x 1, .solve a']

theorem time_note {P : Type} {J : Kind P} (b : Book P) (c : Call P) (hc : ∀ n, c ≠ .deleteObjective n) : (b.note J c).time = b.time := by
  cases c with
  | deleteObjective n => exact absurd rfl (hc n)
  | setMeshScale ms => rw [Book.note]; split <;> rfl
  | setParams ms => rw [Book.note]; split <;> rfl
  | addObjective n o => rw [Book.note]; split <;> rfl
  | addConstraints n o => rw [Book.note]; split <;> rfl
  | deleteConstraints n => rw [Book.note]; split <;> rfl
  | bounds _ => rfl
  | setScales _ => rfl
  | setCons => rfl
  | hessianstructure => rfl
  | hessian _ _ _ => rfl
  | solve _ => rfl

theorem objNames_ne {P : Type} {b : Book P} (h : b.time = true) : b.objNames ≠ [] := by
  unfold Book.objNames
  rw [h]
  simp

theorem exCalls_good {a a' : SolveArgs} (ha : a.warm.length = 28) (ha' : a'.warm.length = 28) (x : List ℝ) :
    GoodCalls exKind exV (Book.init exKind 1) (exCalls a a' x) := by
  have hn : exKind.S.c.o.L.numDec = 28 := by
    show linCond.o.L.numDec = 28
    decide +kernel
  refine ⟨by simp [GoodCall, exV], ?_, ?_, ?_, ⟨by decide, List.replicate 28 1, oneCons_good (by decide)⟩,
    ⟨by decide, List.replicate 28 1, ?_⟩, ⟨by decide, List.replicate 28 1, ?_⟩, ⟨by decide, by decide⟩, trivial, trivial, trivial, trivial, ?_, trivial⟩
  · simp [GoodCall, exV, Book.note, exKind, exSetup]
  · intro c hc
    rw [List.mem_singleton.mp hc]
    exact ⟨Or.inl ⟨by show "inputs" ∈ linCond.o.L.groups; decide +kernel, by
      show "u" ∈ linCond.o.L.namesOf "inputs"; decide +kernel⟩, by norm_num⟩
  · intro _
    refine ⟨objNames_ne ?_, by rw [hn]; exact ha, fun _ => ?_⟩
    · rw [time_note _ _ (by simp), time_note _ _ (by simp), time_note _ _ (by simp)]
      rfl
    · simp [Book.note, exKind, exSetup, Book.init]
  · rw [hn]; exact sqObj_good (by decide)
  · rw [hn]; exact sqObj_good (by decide)
  · intro _
    refine ⟨objNames_ne ?_, by rw [hn]; exact ha', fun _ => rfl⟩
    iterate 12 rw [time_note _ _ (by simp)]
    rfl

/-- The book after it: the gain 5 and the mesh scale 3 without cyclic constraints; 20 rows of the construction and one of the user's. -/
theorem exBook (a a' : SolveArgs) (x : List ℝ) :
    (book exKind 1 (exCalls a a' x)).scale = some 3 ∧ (book exKind 1 (exCalls a a' x)).params = 5
    ∧ (book exKind 1 (exCalls a a' x)).cyclic = false
    ∧ (book exKind 1 (exCalls a a' x)).cons = [("one", 1, (oneCons 28).con)]
    ∧ (book exKind 1 (exCalls a a' x)).objNames = ["time", "sq"] ∧ (book exKind 1 (exCalls a a' x)).limits = 21
    ∧ (book exKind 1 (exCalls a a' x)).rows exKind = 21 := by
  have hn : exKind.S.c.o.L.numDec = 28 := by
    show linCond.o.L.numDec = 28
    decide +kernel
  have hnum : (oneCons 28).numIn = 28 := rfl
  have hnc : (oneCons 28).numCon = 1 := rfl
  have hb : exKind.S.builtScale ≠ none := by simp [exKind, exSetup]
  have hc : exKind.S.isCondensed = false := rfl
  have hr : ∀ k : ℝ, builtRows exKind k false = 20 := by
    intro k
    show (linCond.o.L.numStages * (linCond.o.L.size "states" + linCond.o.L.size "con_outputs" + 0)
      + linCond.o.L.numIntervals * (linCond.o.L.nspi - 1) * linCond.o.L.size "states" + 0) = 20
    decide +kernel
  have e : book exKind 1 (exCalls a a' x) =
      { scales := [⟨"inputs", "u", 7⟩], scale := some 3, params := 5, bounds := [.updateBounds [⟨"inputs", "u", .scalar 0, .scalar 4⟩]]
        time := true, penalty := false, objs := [("sq", (sqObj 28).obj)], cyclic := false
        cons := [("one", 1, (oneCons 28).con)], limits := 21, changed := false } := by
    have i1 : exKind.S.laptime = false := rfl
    have i2 : exKind.S.isCyclic = true := rfl
    simp [book, Book.noteAll, exCalls, Book.note, Book.init, Book.objNames, Book.conNames, hb, hc, hn, hnum, hnc, Book.rows, hr, i1, i2]
  rw [e]
  refine ⟨rfl, rfl, rfl, rfl, rfl, rfl, ?_⟩
  simp [Book.rows, hr]

/-- The hypotheses of C97 hold of this history: the problem the solver sees at the end is that of the mesh scale 3 and the gain 5,
without cyclic constraints and with the user's. -/
example (a a' : SolveArgs) (ha : a.warm.length = 28) (ha' : a'.warm.length = 28) (y : List ℝ) :
    ∃ u, construct exKind 1 = .ok u ∧ ∀ x : List ℝ, x.length = 28 →
      ((u.run (exCalls a a' y)).Feasible (vdiv x (u.run (exCalls a a' y)).now.scales) ↔
        IsSolution (exKind.at (some 3) 5 false) x ∧ x.getD 1 0 = 1) := by
  have hn : exKind.S.c.o.L.numDec = 28 := by
    show linCond.o.L.numDec = 28
    decide +kernel
  obtain ⟨u, hu⟩ := C97_construct exKind_good (p := 1) (by simp [exV, exKind, exSetup])
  refine ⟨u, hu, fun x hx => ?_⟩
  rw [C97_meaning exKind_good (by simp [exV, exKind, exSetup]) hu (exCalls_good ha ha' y) rfl (by rw [hn]; exact hx)]
  obtain ⟨e1, e2, e3, e4, _, e6, e7⟩ := exBook a a' y
  rw [e6, e7]
  unfold Book.setup
  rw [e1, e2, e3]
  have hc : (book exKind 1 (exCalls a a' y)).UserHolds x ↔ x.getD 1 0 = 1 := by
    unfold Book.UserHolds
    rw [e4]
    simp [oneCons, Cons.stateOf, sub_eq_zero]
  rw [hc]
  simp

/-- The three exceptions do occur: constraints added without `set_cons`, ... -/
example (a : SolveArgs) (ha : a.warm.length = 28) : ∃ u, construct exKind 1 = .ok u ∧
    (u.run [.addConstraints "one" (oneCons 28), .hessianstructure]).solve a = .error .valueError := by
  obtain ⟨u, hu⟩ := C97_construct exKind_good (p := 1) (by simp [exV, exKind, exSetup])
  have hn : exKind.S.c.o.L.numDec = 28 := by
    show linCond.o.L.numDec = 28
    decide +kernel
  have hcs : GoodCalls exKind exV (Book.init exKind 1) [.addConstraints "one" (oneCons 28), .hessianstructure] :=
    ⟨⟨by decide, List.replicate 28 1, oneCons_good (by decide)⟩, trivial, trivial⟩
  obtain ⟨_, _, _, _, _, _, _, _, _, _, h⟩ := C97_errors exKind_good (by simp [exV, exKind, exSetup]) hu hcs
  refine ⟨u, hu, (h a ?_).2 ?_⟩
  · intro _
    refine ⟨objNames_ne ?_, by rw [hn]; exact ha, fun _ => rfl⟩
    show ((((Book.init exKind 1).note exKind (.addConstraints "one" (oneCons 28))).note exKind .hessianstructure)).time = true
    rw [time_note _ _ (by simp), time_note _ _ (by simp)]
    rfl
  · have hno : ¬ ("one" ∈ (Book.init exKind 1).conNames exKind ∨ (oneCons 28).numIn ≠ exKind.S.c.o.L.numDec) := by
      rw [hn]
      rintro (h | h)
      · revert h
        have i1 : exKind.S.isCondensed = false := rfl
        have i2 : exKind.S.isCyclic = true := rfl
        simp [Book.conNames, Book.init, i1, i2]
      · exact h rfl
    show (((Book.init exKind 1).note exKind (.addConstraints "one" (oneCons 28))).note exKind .hessianstructure).limits ≠
      (((Book.init exKind 1).note exKind (.addConstraints "one" (oneCons 28))).note exKind .hessianstructure).rows exKind
    have e : (Book.init exKind 1).note exKind (.addConstraints "one" (oneCons 28)) =
        { Book.init exKind 1 with cons := [("one", 1, (oneCons 28).con)], changed := true } := by
      rw [Book.note, if_neg hno]
      rfl
    rw [e]
    show builtRows exKind 1 exKind.S.isCyclic ≠ builtRows exKind 1 exKind.S.isCyclic + 1
    omega

/-- ... an objective added after a solve, ... -/
example (a a' : SolveArgs) (ha : a.warm.length = 28) (ha' : a'.warm.length = 28) : ∃ u, construct exKind 1 = .ok u ∧
    (u.run [.solve a, .addObjective "sq" (sqObj 28)]).solve a' = .error .indexError := by
  obtain ⟨u, hu⟩ := C97_construct exKind_good (p := 1) (by simp [exV, exKind, exSetup])
  have hn : exKind.S.c.o.L.numDec = 28 := by
    show linCond.o.L.numDec = 28
    decide +kernel
  refine ⟨u, hu, (C97_second_solve (cs := []) exKind_good (by simp [exV, exKind, exSetup]) hu trivial rfl rfl rfl (a := a) ?_
    ⟨by decide, List.replicate 28 1, ?_⟩ ?_ ?_ a' (by rw [hn]; exact ha')).2⟩
  · exact fun _ => ⟨objNames_ne rfl, by rw [hn]; exact ha, fun _ => rfl⟩
  · rw [hn]; exact sqObj_good (by decide)
  · show "sq" ∉ ["time"]
    decide
  · simp [sqObj, Obj.stateOf]

/-- ... and all objectives deleted. -/
example (a : SolveArgs) : ∃ u, construct exKind 1 = .ok u ∧
    (u.run [.deleteObjective "time"]).solve a = .error .valueError := by
  obtain ⟨u, hu⟩ := C97_construct exKind_good (p := 1) (by simp [exV, exKind, exSetup])
  exact ⟨u, hu, C97_no_objective (cs := [.deleteObjective "time"]) exKind_good (by simp [exV, exKind, exSetup]) hu
    ⟨trivial, trivial⟩ rfl rfl a⟩

end Lumos.Use
