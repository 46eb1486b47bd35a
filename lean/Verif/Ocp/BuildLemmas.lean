import Verif.Ocp.Build
import Verif.Ocp.PenaltyProps
/-!
# Helper lemmas for C47: every component of a built problem is a correct object
-/

namespace Lumos.Ocp

open Lumos DecVar DecVar.Layout NLP Bounds OCP

/-! ## Changing callables on vectors of the right length -/

theorem UserJac.congr {n m : Nat} {F F' J J' : List ℝ → List ℝ} {st : List Nat × List Nat} {D : List ℝ → Prop} (h : UserJac n m F J st D)
    (hF : ∀ y : List ℝ, y.length = n → F' y = F y) (hJ : ∀ y : List ℝ, y.length = n → J' y = J y) :
    UserJac n m F' J' st D := by
  refine ⟨h.1, fun y hy => ?_⟩
  obtain ⟨h1, h2, h3⟩ := h.2 y hy
  rw [hF y hy, hJ y hy]
  refine ⟨h1, h2, fun hD r hr j hj => ?_⟩
  refine (h3 hD r hr j hj).congr_of_eventuallyEq ?_
  exact Filter.Eventually.of_forall (fun t => by
    show (F' (y.set j t)).getD r 0 = (F (y.set j t)).getD r 0
    rw [hF _ (by simp [hy])])

theorem UserHess.congr {n m : Nat} {F F' : List ℝ → List ℝ} {H H' : List ℝ → List ℝ → List ℝ}
    {st : List Nat × List Nat} {P : Nat → Nat → Prop} {D : List ℝ → Prop} (h : UserHess n m F H st P D)
    (hF : ∀ y : List ℝ, y.length = n → F' y = F y)
    (hH : ∀ y lam : List ℝ, y.length = n → lam.length = m → H' y lam = H y lam) : UserHess n m F' H' st P D := by
  refine ⟨h.1, fun y lam hy hl => ?_⟩
  obtain ⟨h1, h2⟩ := h.2 y lam hy hl
  rw [hH y lam hy hl]
  exact ⟨h1, fun hD => (h2 hD).congr hy (fun z hz => by rw [hF z hz]) (fun _ _ _ _ _ => rfl)⟩

theorem UserObj.congr {n : Nat} {f f' : List ℝ → ℝ} {g g' h h' : List ℝ → List ℝ} {st : List Nat × List Nat}
    {P : Nat → Nat → Prop} {D : List ℝ → Prop} (hu : UserObj n f g h st P D) (hf : ∀ y : List ℝ, y.length = n → f' y = f y)
    (hg : ∀ y : List ℝ, y.length = n → g' y = g y) (hh : ∀ y : List ℝ, y.length = n → h' y = h y) :
    UserObj n f' g' h' st P D := by
  refine ⟨hu.1, fun y hy => ?_⟩
  obtain ⟨h1, h2, h3, h4⟩ := hu.2 y hy
  rw [hg y hy, hh y hy]
  refine ⟨h1, fun hD j hj => ?_, h3, fun hD => (h4 hD).congr hy (fun z hz => hf z hz) (fun _ _ _ _ _ => rfl)⟩
  refine (h2 hD j hj).congr_of_eventuallyEq ?_
  exact Filter.Eventually.of_forall (fun t => hf _ (by simp [hy]))

theorem IsHessianAt.weaken {n : Nat} {f : List ℝ → ℝ} {x : List ℝ} {P Q : Nat → Nat → Prop} {H : Nat → Nat → ℝ}
    (h : IsHessianAt n f x P H) (hq : ∀ i j, Q i j → P i j) : IsHessianAt n f x Q H := by
  obtain ⟨g, h1, h2⟩ := h
  exact ⟨g, h1, fun i j hi hj hij => h2 i j hi hj (hq i j hij)⟩

/-- Unit scales, as in a problem under construction. -/
noncomputable def ones (n : Nat) : List ℝ := List.replicate n 1

/-- A constraint object that has been made from right callables. -/
theorem make_good {n m : Nat} {con jac : List ℝ → List ℝ} {hess : List ℝ → List ℝ → List ℝ} {js hs : List Nat × List Nat}
    {D : List ℝ → Prop}
    (hj : UserJac n m con jac js D) (hh : UserHess n m con hess hs Upper D) :
    ∃ c, Cons.make n m con jac hess (some js) (some hs) = .ok c ∧ GoodCons n (ones n) c D ∧ c.numCon = m ∧ c.con = con := by
  have e := make_eq (js := some js) (hs := some hs) (con := con) (jac := jac) (hess := hess)
    (by simpa [declared] using hj.1) (by simpa [declared] using hh.1)
  exact ⟨_, e, by simpa [Cons.runAll, lastInput, ones] using goodCons_of_make e hj hh [] (by simp), rfl, rfl⟩

theorem makeObj_good {n : Nat} {f : List ℝ → ℝ} {g h : List ℝ → List ℝ} {hs : List Nat × List Nat}
    {D : List ℝ → Prop} (hu : UserObj n f g h hs Upper D) :
    ∃ o, Obj.make n f g h (some hs) = .ok o ∧ GoodObj n (ones n) o D ∧ o.obj = f := by
  have e := obj_make_eq (hs := some hs) (f := f) (g := g) (h := h) (by simpa [declared] using hu.1)
  exact ⟨_, e, goodObj_of_make e hu, rfl⟩

/-- Affine constraints with a right, constant Jacobian, made as linear constraints, are correct. -/
theorem makeLinear_good {n m : Nat} {con jac : List ℝ → List ℝ} {js : List Nat × List Nat} {vals : List ℝ}
    {M : Nat → Nat → ℝ} {b : Nat → ℝ} {cache : Bool} (hu : UserJac n m con (fun _ => vals) js)
    (hA : Affine n m con M b) (hjac : ∀ y : List ℝ, y.length = n → jac y = vals) :
    ∃ c, Cons.makeLinear n m con jac js cache = .ok c ∧ GoodCons n (ones n) c ∧ c.numCon = m ∧ c.con = con := by
  unfold Cons.makeLinear
  refine make_good (UserJac.congr hu (fun _ _ => rfl) fun y hy => ?_) ⟨⟨rfl, by simp, by simp⟩, fun y lam hy hl => ⟨rfl, fun _ => ?_⟩⟩
  · cases cache
    · simp [hjac y hy]
    · simp [hjac (List.replicate n 1) (by simp)]
  · exact IsHessianAt.weaken ((affine_hessian hA hy hl).congr hy (fun _ _ => rfl) (fun i j _ _ _ => by simp [assemble]))
      (fun _ _ _ => trivial)

/-! ## Adding components -/

/-- What a user can see of the constraints of a problem: names in order, sizes and functions. -/
def consSig (p : Prob) : List (String × Nat × (List ℝ → List ℝ)) := p.cons.map fun c => (c.1, c.2.numCon, c.2.con)

/-- The same for the objectives. -/
def objsSig (p : Prob) : List (String × (List ℝ → ℝ)) := p.objs.map fun o => (o.1, o.2.obj)

theorem consSig_of_same {p q : Prob} (h : List.Forall₂ Same p.cons q.cons) : consSig q = consSig p := by
  unfold consSig
  generalize p.cons = a at h
  generalize q.cons = b at h
  induction h with
  | nil => rfl
  | cons h _ ih =>
    obtain ⟨h1, _, h3, h4, _⟩ := h
    simp only [List.map_cons, ih, h1, h3, h4]

theorem names_of_sig (p : Prob) : p.cons.map Prod.fst = (consSig p).map Prod.fst := by
  simp [consSig, Function.comp_def]

theorem numCon_of_sig (p : Prob) : p.numCon = ((consSig p).map fun c => c.2.1).sum := by
  simp [consSig, Prob.numCon, Function.comp_def]

theorem objNames_of_sig (p : Prob) : p.objs.map Prod.fst = (objsSig p).map Prod.fst := by
  simp [objsSig, Function.comp_def]

theorem addCon_ok {n : Nat} {A : List ℝ → Prop} {p : Prob} (hp : Reachable n p A) {name : String} {c : Cons} {s : List ℝ} (hc : GoodCons n s c A)
    (hn : name ∉ (consSig p).map Prod.fst) :
    ∃ q, orRaise (p.addConstraints name c) = .ok q ∧ Reachable n q A ∧ consSig q = consSig p ++ [(name, c.numCon, c.con)]
      ∧ objsSig q = objsSig p ∧ q.scales = p.scales := by
  have hI := hp.inv
  rw [← names_of_sig, ← hasKey_iff] at hn
  obtain ⟨a1, a2, a3⟩ := hc.setInput hI.scales
  obtain ⟨⟨_, _, e3, e4, _⟩, _⟩ := same_setInput name hc hI.scales
  have e : c.setInputScales p.scales = ((c.setInputScales p.scales).1, none) := by rw [← a1]
  have hadd : p.addConstraints name c = ({ p with cons := p.cons ++ [(name, (c.setInputScales p.scales).1)] }, none) := by
    unfold Prob.addConstraints
    rw [if_neg hn, if_neg (by rw [hc.numIn, hI.dec]; simp), e]
  have hs := Reachable.step hp (.addCon name c) ⟨s, by rw [hc.numIn]; exact hc⟩
  simp only [Prob.step, hadd] at hs
  rw [hadd]
  refine ⟨_, rfl, hs, ?_, rfl, rfl⟩
  simp [consSig]
  exact ⟨e3.symm, e4.symm⟩

theorem addObj_ok {n : Nat} {A : List ℝ → Prop} {p : Prob} (hp : Reachable n p A) {name : String} {o : Obj} {s : List ℝ} (ho : GoodObj n s o A)
    (hn : name ∉ (objsSig p).map Prod.fst) :
    ∃ q, orRaise (p.addObjective name o) = .ok q ∧ Reachable n q A ∧ consSig q = consSig p
      ∧ objsSig q = objsSig p ++ [(name, o.obj)] ∧ q.scales = p.scales := by
  have hI := hp.inv
  rw [← objNames_of_sig, ← hasKey_iff] at hn
  obtain ⟨a1, a2⟩ := ho.setInput hI.scales
  have e : o.setInputScales p.scales = ((o.setInputScales p.scales).1, none) := by rw [← a1]
  have eo : (o.setInputScales p.scales).1.obj = o.obj := by
    obtain ⟨f, g, h, st, rfl, hu, _⟩ := ho
    rw [obj_set_eq hu.1 hI.scales.1]
    rfl
  have hadd : p.addObjective name o = ({ p with objs := p.objs ++ [(name, (o.setInputScales p.scales).1)] }, none) := by
    unfold Prob.addObjective
    rw [if_neg hn, e]
  have hs := Reachable.step hp (.addObj name o) ⟨s, by rw [hI.dec]; exact ho⟩
  simp only [Prob.step, hadd] at hs
  rw [hadd]
  refine ⟨_, rfl, hs, rfl, ?_, rfl⟩
  simp [objsSig, eo]

theorem delCon_ok {n : Nat} {A : List ℝ → Prop} {p : Prob} (hp : Reachable n p A) {name : String} (hn : name ∈ (consSig p).map Prod.fst) :
    ∃ q, orRaise (p.deleteConstraints name) = .ok q ∧ Reachable n q A
      ∧ consSig q = (consSig p).filter (fun c => c.1 != name) ∧ objsSig q = objsSig p ∧ q.scales = p.scales := by
  rw [← names_of_sig, ← hasKey_iff] at hn
  have hdel : p.deleteConstraints name = ({ p with cons := dropKey p.cons name }, none) := by
    unfold Prob.deleteConstraints
    rw [if_pos hn]
  have hs := Reachable.step hp (.delCon name) trivial
  simp only [Prob.step, hdel] at hs
  rw [hdel]
  refine ⟨_, rfl, hs, ?_, rfl, rfl⟩
  simp [consSig, dropKey, List.filter_map, Function.comp_def]

theorem objsSig_setScales (L : Layout) (nr : Nat) (cd : Bool) (p : Prob) (cfgs : List ScaleConfig) :
    objsSig (Ocp.setScales L nr cd p cfgs).1 = objsSig p := by
  have h1 : ∀ (o : Obj) (s : List ℝ), (o.setInputScales s).1.obj = o.obj := by
    intro o s
    unfold Obj.setInputScales Obj.updateHessScales
    dsimp only
    cases gather s o.hessStruct.1 with
    | error e => rfl
    | ok a =>
      cases gather s o.hessStruct.2 with
      | error e => rfl
      | ok b => rfl
  have h2 : ∀ (d : List (String × Obj)) (s : List ℝ),
      (applyAll (fun o : Obj => o.setInputScales s) d).1.map (fun o => (o.1, o.2.obj)) = d.map fun o => (o.1, o.2.obj) := by
    intro d s
    induction d with
    | nil => rfl
    | cons a d ih =>
      obtain ⟨k, o⟩ := a
      have := h1 o s
      simp only [applyAll]
      rcases e : o.setInputScales s with ⟨o', _ | e'⟩
      · rw [e] at this
        simp only [List.map_cons, ih]
        exact congrArg (· :: _) (Prod.ext rfl this)
      · rw [e] at this
        simp only [List.map_cons]
        exact congrArg (· :: _) (Prod.ext rfl this)
  have h3 : ∀ (p : Prob) (s : List ℝ), objsSig (p.setScales s).1 = objsSig p := by
    intro p s
    unfold Prob.setScales objsSig
    dsimp only
    split
    · exact h2 p.objs s
    · exact h2 p.objs s
  have h4 : ∀ (p : Prob) (name : String) (k : List ℝ), objsSig (p.setConScales name k).1 = objsSig p := by
    intro p name k
    unfold Prob.setConScales objsSig
    split <;> rfl
  unfold Ocp.setScales
  split
  · rfl
  · rename_i s _
    split
    · rename_i q e he
      rw [← h3 p s.dec, he]
    · rename_i q he
      have hq : objsSig q = objsSig p := by rw [← h3 p s.dec, he]
      dsimp only
      split
      · rw [h4, hq]
      · split
        · rename_i q2 e he2
          have := h4 q "model_algebra" (List.replicate L.numStages (s.get "states" ++ (s.get "con_outputs" ++ List.replicate nr 1))).flatten
          rw [he2] at this
          exact this.trans hq
        · rename_i q2 he2
          have := h4 q "model_algebra" (List.replicate L.numStages (s.get "states" ++ (s.get "con_outputs" ++ List.replicate nr 1))).flatten
          rw [he2] at this
          rw [h4]
          exact this.trans hq

/-! ## The components -/

theorem nat_cast_inj {a b : List Nat} (h : a.map (fun (n : Nat) => (n : Int)) = b.map (fun (n : Nat) => (n : Int))) : a = b :=
  List.map_injective_iff.mpr (fun _ _ e => Int.ofNat.inj e) h

theorem timeObj_ok {S : Setup} {D : List ℝ → ℝ → Prop} (h : S.Good D) :
    ∃ o, S.timeObj = .ok o ∧ GoodObj S.c.o.L.numDec (ones S.c.o.L.numDec) o ∧
      ∀ x : List ℝ, x.length = S.c.o.L.numDec →
        (S.c.o.fixedScale = none → o.obj x = scalarOf S.c.o.timeObjective x) ∧
        (S.c.o.fixedScale ≠ none → o.obj x = scalarOf S.c.o.fixedTimeObjective x) := by
  have zeroH : ∀ (f : List ℝ → ℝ) (g : List ℝ → List ℝ) (v : Nat → ℝ),
      (∀ y : List ℝ, y.length = S.c.o.L.numDec → ∀ j, j < S.c.o.L.numDec → (g y).getD j 0 = v j) →
      (∀ y : List ℝ, y.length = S.c.o.L.numDec → IsGradientAt S.c.o.L.numDec f y (fun j => (g y).getD j 0)) →
      ∀ y : List ℝ, y.length = S.c.o.L.numDec → IsHessianAt S.c.o.L.numDec f y Upper (assemble [] [] []) := by
    intro f g v hv hg y hy
    refine IsHessianAt.of_global hy ⟨fun _ => v, fun z hz j hj => ?_, fun i j _ _ _ => ?_⟩
    · have := hg z hz j hj
      dsimp only at this
      rw [hv z hz j hj] at this
      exact this
    · simpa [assemble] using hasDerivAt_const (y.getD j 0) (v i)
  unfold Setup.timeObj
  dsimp only
  rcases hf : S.c.o.fixedScale with _ | ms
  · obtain ⟨f, h1, h2⟩ := C27_scaled_time_objective h.cond.ocp hf
    have hu : UserObj S.c.o.L.numDec (scalarOf S.c.o.timeObjective) (valueOf S.c.o.timeGradient) (fun _ => []) ([], []) Upper := by
      have hgr : ∀ y : List ℝ, y.length = S.c.o.L.numDec → IsGradientAt S.c.o.L.numDec f y
          (fun j => (valueOf S.c.o.timeGradient y).getD j 0) := by
        intro y hy
        obtain ⟨g, e, _, _, h4⟩ := h2 y hy
        simpa only [valueOf, e] using h4
      have hval : ∀ y : List ℝ, y.length = S.c.o.L.numDec → ∀ j, j < S.c.o.L.numDec →
          (valueOf S.c.o.timeGradient y).getD j 0 = if S.c.o.L.indexInDec "global" "mesh_scale" none = .ok (.scalar j) then 1 else 0 := by
        intro y hy j _
        obtain ⟨g, e, _, h3, _⟩ := h2 y hy
        simpa only [valueOf, e] using h3 j
      have hb : UserObj S.c.o.L.numDec f (valueOf S.c.o.timeGradient) (fun _ => []) ([], []) Upper := by
        refine ⟨⟨rfl, by simp, by simp⟩, fun y hy => ⟨?_, fun _ => hgr y hy, rfl, fun _ => zeroH f _ _ hval hgr y hy⟩⟩
        obtain ⟨g, e, h3, _⟩ := h2 y hy
        simpa only [valueOf, e] using h3
      exact UserObj.congr hb (fun y hy => by simp only [scalarOf, (h1 y hy).1]) (fun _ _ => rfl) (fun _ _ => rfl)
    obtain ⟨o, e1, e2, e3⟩ := makeObj_good hu
    exact ⟨o, e1, e2, fun x _ => ⟨fun _ => by rw [e3], fun hne => absurd rfl hne⟩⟩
  · have ht := h.time (by rw [hf]; simp)
    obtain ⟨k, hk⟩ := List.mem_iff_getElem?.mp ht
    obtain ⟨f, h1, h2⟩ := C27_fixed_time_objective h.cond.ocp hk
    have hu : UserObj S.c.o.L.numDec (scalarOf S.c.o.fixedTimeObjective) (valueOf S.c.o.fixedTimeGradient) (fun _ => []) ([], []) Upper := by
      have hgr : ∀ y : List ℝ, y.length = S.c.o.L.numDec → IsGradientAt S.c.o.L.numDec f y
          (fun j => (valueOf S.c.o.fixedTimeGradient y).getD j 0) := by
        intro y hy
        obtain ⟨g, e, _, h4⟩ := h2 y hy
        simpa only [valueOf, e] using h4
      have hval : ∀ y : List ℝ, y.length = S.c.o.L.numDec → ∀ j, j < S.c.o.L.numDec →
          (valueOf S.c.o.fixedTimeGradient y).getD j 0
            = (valueOf S.c.o.fixedTimeGradient (ones S.c.o.L.numDec)).getD j 0 := by
        intro y hy j _
        have hl : (ones S.c.o.L.numDec).length = S.c.o.L.numDec := by simp [ones]
        have e : y.map (fun _ => (0 : ℝ)) = (ones S.c.o.L.numDec).map fun _ => (0 : ℝ) := by
          simp [List.map_const', hy, hl]
        have : S.c.o.fixedTimeGradient y = S.c.o.fixedTimeGradient (ones S.c.o.L.numDec) := by
          unfold fixedTimeGradient
          rw [e]
        unfold valueOf
        rw [this]
      have hb : UserObj S.c.o.L.numDec f (valueOf S.c.o.fixedTimeGradient) (fun _ => []) ([], []) Upper := by
        refine ⟨⟨rfl, by simp, by simp⟩, fun y hy => ⟨?_, fun _ => hgr y hy, rfl, fun _ => zeroH f _ _ hval hgr y hy⟩⟩
        obtain ⟨g, e, h3, _⟩ := h2 y hy
        simpa only [valueOf, e] using h3
      exact UserObj.congr hb (fun y hy => by simp only [scalarOf, (h1 y hy).1]) (fun _ _ => rfl) (fun _ _ => rfl)
    obtain ⟨o, e1, e2, e3⟩ := makeObj_good hu
    exact ⟨o, e1, e2, fun x _ => ⟨fun hne => by simp at hne, fun _ => by rw [e3]⟩⟩

/-- The only input that `defaultWeights` mentions. -/
theorem defaultWeights_known {S : Setup} {D : List ℝ → ℝ → Prop} (h : S.Good D) (hl : S.laptime = true) :
    ∀ w ∈ defaultWeights, w.1 ∈ S.c.o.L.namesOf "inputs" := by
  intro w hw
  simp only [defaultWeights, List.mem_singleton] at hw
  subst hw
  exact (h.lap hl).2

theorem penaltyObj_ok {S : Setup} {D : List ℝ → ℝ → Prop} (h : S.Good D) (hl : S.laptime = true) :
    ∃ o, S.penaltyObj = .ok o ∧ GoodObj S.c.o.L.numDec (ones S.c.o.L.numDec) o ∧
      o.obj = scalarOf (inputsPenalty S.c.o.L defaultWeights) := by
  have hi : "inputs" ∈ S.c.o.L.groups := by rw [h.cond.groups]; simp
  have hL := h.cond.ocp.made
  have hF := h.cond.ocp.fields
  have hw := defaultWeights_known h hl
  obtain ⟨st, vals, s1, s2, s3, s4, s5⟩ := penalty_structure hL hi hw
  unfold Setup.penaltyObj
  simp only [s1, bind, Except.bind]
  refine makeObj_good (UserObj.congr (f := penaltyFun S.c.o.L defaultWeights)
    (g := valueOf (inputsPenaltyGrad S.c.o.L defaultWeights)) (h := fun _ => vals) ⟨s3, fun y hy => ?_⟩ ?_ (fun _ _ => rfl) ?_)
  · obtain ⟨g, g1, g2, g3⟩ := penaltyGrad_eq hL hF hi hw hy
    have eg : valueOf (inputsPenaltyGrad S.c.o.L defaultWeights) y = g := by simp only [valueOf, g1]
    refine ⟨by rw [eg, g2], fun _ => ?_, s4, fun _ => ?_⟩
    · intro j hj
      have := penalty_gradient (L := S.c.o.L) (ws := defaultWeights) hy j hj
      dsimp only at this ⊢
      rw [eg, g3 j hj]
      exact this
    · exact (penalty_hessian (L := S.c.o.L) (ws := defaultWeights) hy Upper).congr hy (fun _ _ => rfl) (fun i j _ _ _ => s5 i j)
  · intro y hy
    simp only [scalarOf, penalty_eq hL hF hi hw hy]
  · intro y _
    simp only [valueOf, s2]

theorem constructed_good {S : Setup} {D : List ℝ → ℝ → Prop} (h : S.Good D) : S.constructed.Good := by
  obtain ⟨st, h2, h3, h4, h5, h6, h7, h8, h9⟩ := h.cond
  refine ⟨?_, h2, h3, h4, h5, h6, h7, h8, h9⟩
  obtain ⟨⟨g1, g2, g3, g4, g5, g6, g7, g8, g9, g10⟩, w, q⟩ := st
  exact ⟨⟨g1, g2, g3, g4, g5, g6, g7, g8, g9, g10.trans h.built.symm⟩, w, q⟩

theorem upper_shift (n : Nat) : ∀ s i j, i < n → j < n → Upper (s * n + i) (s * n + j) → Upper i j := by
  intro s i j _ _ hu
  unfold Upper at hu ⊢
  omega

theorem stageCons_ok {S : Setup} {D : List ℝ → ℝ → Prop} (h : S.Good D) :
    ∃ c, S.stageCons = .ok c ∧ GoodCons S.c.o.L.numDec (ones S.c.o.L.numDec) c (S.dom D)
      ∧ c.numCon = S.c.o.L.numStages * S.c.u.numCon ∧ c.con = valueOf (S.c.o.stageConstraints S.c.u S.c.mesh) := by
  have hj := stage_userJac h.cond.stage h.jac h.meshFree
  have hh := stage_userHess (P := Upper) h.cond.stage h.cond.unitSize h.hess h.meshFree (upper_shift _)
  unfold Setup.stageCons
  dsimp only
  rw [stageJacStructure_eq, stageHessStructure_eq]
  simp only [bind, Except.bind]
  have e1 : ∀ y : List ℝ, y.length = S.c.o.L.numDec →
      valueOf (S.c.o.stageConstraints S.c.u S.c.mesh) y = S.c.o.stageFun S.c.u S.c.mesh y := by
    intro y hy
    simp only [valueOf, stageConstraints_eq h.cond.stage hy]
  refine make_good (UserJac.congr (hj.mono fun _ h => h.1) e1 fun y hy => ?_) (UserHess.congr (hh.mono fun _ h => h.1) e1 fun y lam hy hl => ?_)
  · simp only [valueOf, stageJacobian_eq h.cond.stage hy]
  · simp only [valueOf, stageHessian_eq h.cond.stage hy hl]

theorem contCons_ok {S : Setup} {D : List ℝ → ℝ → Prop} (h : S.Good D) :
    ∃ c, S.contCons = .ok c ∧ GoodCons S.c.o.L.numDec (ones S.c.o.L.numDec) c
      ∧ c.numCon = S.c.o.numContinuity ∧ c.con = valueOf S.c.o.contConstraints := by
  obtain ⟨rows, cols, F, h1, h2, h3, h4, h5, h6⟩ := C25_continuity_jacobian h.cond.ocp
  have e1 : ∀ y : List ℝ, y.length = S.c.o.L.numDec → valueOf S.c.o.contConstraints y = F y := by
    intro y hy
    simp only [valueOf, h5 y hy]
  have hlenF : ∀ y : List ℝ, y.length = S.c.o.L.numDec → (F y).length = S.c.o.numContinuity := by
    intro y hy
    have := h5 y hy
    rw [contConstraints_eq h.cond.ocp hy] at this
    simp only [Except.ok.injEq] at this
    rw [← this, length_contFun]
  unfold Setup.contCons
  dsimp only
  rw [h1]
  simp only [bind, Except.bind, CondOCP.toNat_cast]
  rcases hf : S.c.o.fixedScale with _ | ms
  · obtain ⟨hr, hc, F', k1, k2, k3, k4, k5⟩ := C26_continuity_hessian h.cond.ocp hf
    dsimp only
    rw [k1]
    simp only [CondOCP.toNat_cast]
    have e2 : ∀ y : List ℝ, y.length = S.c.o.L.numDec → valueOf S.c.o.contConstraints y = F' y := by
      intro y hy
      simp only [valueOf, k4 y hy]
    have hj : UserJac S.c.o.L.numDec S.c.o.numContinuity F (valueOf S.c.o.contJacobian) (rows, cols) := by
      refine ⟨⟨h2, h3, h4⟩, fun y hy => ?_⟩
      obtain ⟨vals, e, hl, hd⟩ := h6 y hy
      simp only [valueOf, e]
      exact ⟨hlenF y hy, hl, fun _ => hd⟩
    have hh : UserHess S.c.o.L.numDec S.c.o.numContinuity F' (fun x => valueOf (S.c.o.contHessian x)) (hr, hc) Upper := by
      refine ⟨⟨k2, ?_, ?_⟩, fun y lam hy hl => ?_⟩
      · intro r hr'
        obtain ⟨i, hi⟩ := List.mem_iff_getElem?.mp hr'
        have hlt := (List.getElem?_eq_some_iff.mp hi).1
        dsimp only at hlt
        have := k3 (r, hc[i]'(by omega)) (by
          rw [List.mem_iff_getElem?]
          exact ⟨i, by rw [List.getElem?_zip_eq_some]; exact ⟨hi, List.getElem?_eq_getElem (by omega)⟩⟩)
        dsimp only at this
        omega
      · intro r hr'
        obtain ⟨i, hi⟩ := List.mem_iff_getElem?.mp hr'
        have hlt := (List.getElem?_eq_some_iff.mp hi).1
        dsimp only at hlt
        exact (k3 (hr[i]'(by omega), r) (by
          rw [List.mem_iff_getElem?]
          exact ⟨i, by rw [List.getElem?_zip_eq_some]; exact ⟨List.getElem?_eq_getElem (by omega), hi⟩⟩)).2
      · obtain ⟨vals, e, hl', hd⟩ := k5 y lam hy hl
        simp only [valueOf, e]
        exact ⟨hl', fun _ => hd⟩
    exact make_good (UserJac.congr hj e1 fun _ _ => rfl) (UserHess.congr hh e2 fun _ _ _ _ => rfl)
  · obtain ⟨rows', cols', vals, F', k1, k2, k3⟩ := C27_fixed_mesh_linear h.cond.ocp hf
    rw [h1] at k1
    simp only [Except.ok.injEq, Prod.mk.injEq] at k1
    obtain ⟨er, ec⟩ := k1
    have er := nat_cast_inj er
    have ec := nat_cast_inj ec
    subst er ec
    dsimp only
    have eF : ∀ y : List ℝ, y.length = S.c.o.L.numDec → valueOf S.c.o.contConstraints y = F' y := by
      intro y hy
      simp only [valueOf, (k2 y hy).2]
    refine makeLinear_good (vals := vals) (M := assemble rows cols vals) (b := fun _ => 0) ⟨⟨h2, h3, h4⟩, fun y hy => ?_⟩ ?_ ?_
    · obtain ⟨v', e, hl, hd⟩ := h6 y hy
      rw [(k2 y hy).1] at e
      simp only [Except.ok.injEq] at e
      subst e
      have hU : UserJac S.c.o.L.numDec S.c.o.numContinuity F (valueOf S.c.o.contJacobian) (rows, cols) := by
        refine ⟨⟨h2, h3, h4⟩, fun y hy => ?_⟩
        obtain ⟨v', e', hl', hd'⟩ := h6 y hy
        simp only [valueOf, e']
        exact ⟨hlenF y hy, hl', fun _ => hd'⟩
      have := (UserJac.congr hU e1 (J' := fun _ => vals) (fun z hz => by simp only [valueOf, (k2 z hz).1])).2 y hy
      exact this
    · intro y hy
      rw [eF y hy]
      exact k3 y hy
    · intro y hy
      simp only [valueOf, (k2 y hy).1]

theorem condCons_ok {S : Setup} {D : List ℝ → ℝ → Prop} (h : S.Good D) (hcd : S.isCondensed = true) :
    ∃ c, S.condCons = .ok c ∧ GoodCons S.c.o.L.numDec (ones S.c.o.L.numDec) c (S.dom D)
      ∧ c.numCon = S.c.numCon ∧ c.con = valueOf S.c.constraints := by
  obtain ⟨hx0, hcov⟩ := h.sample hcd
  obtain ⟨st, s1, s2, s3, s4⟩ := CondOCP.C29_sampled_structure (constructed_good h) hx0
  have hhs : S.constructed.hessStructure = S.c.hessStructure := rfl
  obtain ⟨F, H, hs, g1, g2, g3⟩ : ∃ (F : List ℝ → List ℝ) (H : List ℝ → List ℝ → List ℝ) (st : List Nat × List Nat),
      S.c.hessStructure = .ok st ∧
      (∀ y : List ℝ, y.length = S.c.o.L.numDec → S.c.constraints y = .ok (F y) ∧
        ∀ lam : List ℝ, lam.length = S.c.numCon → S.c.hessian y lam = .ok (H y lam)) ∧
      UserHess S.c.o.L.numDec S.c.numCon F H st Upper (S.dom D) := by
    rcases hf : S.c.o.fixedScale with _ | ms
    · exact CondOCP.C30_hessian_scaled_mesh h.cond h.jac h.hess h.meshFree hf (h.last hf)
    · exact CondOCP.C30_hessian_fixed_mesh h.cond h.jac h.hess h.meshFree (upper_shift _) hf
  have e1 : ∀ y : List ℝ, y.length = S.c.o.L.numDec → valueOf S.c.constraints y = F y := by
    intro y hy
    simp only [valueOf, (g2 y hy).1]
  unfold Setup.condCons
  rw [s1, hhs, g1]
  simp only [bind, Except.bind]
  have hj : UserJac S.c.o.L.numDec S.c.numCon F (valueOf (S.c.jacobian st)) st (S.dom D) := by
    refine ⟨s2, fun y hy => ?_⟩
    have hJ := CondOCP.bigJac_eq h.cond hy
    have hval : S.c.jacobian st y = .ok (List.zipWith (S.c.bigMat y) st.1 st.2) := by
      unfold CondOCP.jacobian
      rw [hJ]; rfl
    obtain ⟨vals, k3, k4, k7⟩ : ∃ vals, S.c.jacobian st y = .ok vals ∧ vals.length = st.1.length ∧ (S.dom D y →
        ∀ r p, r < S.c.numCon → p < S.c.o.L.numDec → assemble st.1 st.2 vals r p = S.c.bigMat y r p) := by
      refine ⟨_, hval, by rw [List.length_zipWith, s2.1]; simp, fun hD => ?_⟩
      obtain ⟨vals, e1, -, e2⟩ := CondOCP.C29_values_at_structure (c := S.c) st s2 s3 hJ (by
        intro r p hr hp hne
        exact (s4 r p).mpr ⟨hr, hp, hcov y _ hy hD hJ r p hr hp hne⟩)
      rw [hval, Except.ok.injEq] at e1
      rw [e1]
      exact e2
    obtain ⟨F', k1, k5⟩ : ∃ F' : List ℝ → List ℝ, (∀ z : List ℝ, z.length = S.c.o.L.numDec → S.c.constraints z = .ok (F' z)) ∧
        (S.dom D y → IsJacobianAt S.c.o.L.numDec S.c.numCon F' y (assemble st.1 st.2 vals)) := by
      refine ⟨S.c.condFun, fun z hz => CondOCP.constraints_eq h.cond hz, fun hD r hr p hp => ?_⟩
      rw [k7 hD r p hr hp]
      exact CondOCP.bigMat_isJacobian h.cond h.jac h.meshFree hy hD.1 r hr p hp
    have eF : ∀ z : List ℝ, z.length = S.c.o.L.numDec → F z = F' z := by
      intro z hz
      have := (g2 z hz).1
      rw [k1 z hz] at this
      simp only [Except.ok.injEq] at this
      exact this.symm
    simp only [valueOf, k3]
    refine ⟨?_, k4, fun hD r hr j hj => ?_⟩
    · have := (g2 y hy).1
      obtain ⟨con, _, _, _, c1, c2, _⟩ := CondOCP.C28_condensed_value h.cond hy
      rw [c1] at this
      simp only [Except.ok.injEq] at this
      rw [← this, c2]
    · refine (k5 hD r hr j hj).congr_of_eventuallyEq ?_
      exact Filter.Eventually.of_forall (fun t => by
        show (F (y.set j t)).getD r 0 = (F' (y.set j t)).getD r 0
        rw [eF _ (by simp [hy])])
  refine make_good (UserJac.congr hj e1 fun _ _ => rfl) (UserHess.congr g3 e1 fun y lam hy hl => ?_)
  simp only [valueOf, (g2 y hy).2 lam hl]

/-- The variables that must be periodic: states and inputs that are not excluded, in that order. -/
def cyclicPairs (S : Setup) : List (String × String) :=
  ((S.c.o.L.namesOf "states").map (fun n => ("states", n)) ++ (S.c.o.L.namesOf "inputs").map (fun n => ("inputs", n))).filter
    fun p => fullName p.1 p.2 ∉ S.nonCyclic

theorem mem_cyclicPairs {S : Setup} {g n : String} : (g, n) ∈ cyclicPairs S ↔
    (g = "states" ∨ g = "inputs") ∧ n ∈ S.c.o.L.namesOf g ∧ (g ++ "." ++ n) ∉ S.nonCyclic := by
  unfold cyclicPairs
  simp only [List.mem_filter, List.mem_append, List.mem_map, Prod.mk.injEq, fullName]
  constructor
  · rintro ⟨⟨m, hm, rfl, rfl⟩ | ⟨m, hm, rfl, rfl⟩, h2⟩
    · exact ⟨Or.inl rfl, hm, of_decide_eq_true h2⟩
    · exact ⟨Or.inr rfl, hm, of_decide_eq_true h2⟩
  · rintro ⟨rfl | rfl, h1, h2⟩
    · exact ⟨Or.inl ⟨n, h1, rfl, rfl⟩, decide_eq_true h2⟩
    · exact ⟨Or.inr ⟨n, h1, rfl, rfl⟩, decide_eq_true h2⟩

theorem group_mem {S : Setup} {D : List ℝ → ℝ → Prop} (h : S.Good D) {g : String} (hg : g ∈ ["states", "inputs", "states_dot", "con_outputs"]) :
    g ∈ S.c.o.L.groups := by rw [h.cond.groups]; exact hg

theorem cyclicPairs_ne {S : Setup} {D : List ℝ → ℝ → Prop} (h : S.Good D) (hc : S.isCyclic = true) : cyclicPairs S ≠ [] := by
  rcases h.someCyclic hc with ⟨n, h1, h2⟩ | ⟨n, h1, h2⟩
  · exact List.ne_nil_of_mem (mem_cyclicPairs (g := "states").mpr ⟨Or.inl rfl, h1, h2⟩)
  · exact List.ne_nil_of_mem (mem_cyclicPairs (g := "inputs").mpr ⟨Or.inr rfl, h1, h2⟩)

theorem cyclicPairs_var {S : Setup} {D : List ℝ → ℝ → Prop} (h : S.Good D) (hc : S.isCyclic = true) :
    ∀ p ∈ cyclicPairs S, S.c.o.L.IsVar (.stage 0 p.1 p.2) ∧ Dotless p.1 ∧ Dotless p.2 := by
  rintro ⟨g, n⟩ hp
  obtain ⟨hg, hn, _⟩ := mem_cyclicPairs.mp hp
  obtain ⟨d1, d2⟩ := h.dotless hc
  rcases hg with rfl | rfl
  · exact ⟨isVar_of_known h.cond.ocp.made (group_mem h (by simp)) hn 0 (numStages_pos _), by simp [Dotless], d1 n hn⟩
  · exact ⟨isVar_of_known h.cond.ocp.made (group_mem h (by simp)) hn 0 (numStages_pos _), by simp [Dotless], d2 n hn⟩

theorem getNames_ok {S : Setup} {D : List ℝ → ℝ → Prop} (h : S.Good D) {g : String} (hg : g ∈ ["states", "inputs", "states_dot", "con_outputs"]) :
    S.c.o.L.getNames g = .ok (S.c.o.L.namesOf g) := by
  unfold getNames
  rw [OCP.lookup_of_group h.cond.ocp.made (group_mem h hg)]

theorem cyclicVars_ok {S : Setup} {D : List ℝ → ℝ → Prop} (h : S.Good D) (hc : S.isCyclic = true) :
    buildCyclicVars (S.c.o.L.namesOf "states") (S.c.o.L.namesOf "inputs") S.nonCyclic
      = .ok ((cyclicPairs S).map fun p => fullName p.1 p.2) := by
  have hnd : ((S.c.o.L.namesOf "states").map (fullName "states") ++ (S.c.o.L.namesOf "inputs").map (fullName "inputs")).Nodup := by
    have := h.cond.ocp.made.nodup
    unfold stageVarNames at this
    rw [h.cond.groups] at this
    simp only [List.flatMap_cons, List.flatMap_nil, ← List.append_assoc] at this
    exact (List.nodup_append.mp (List.nodup_append.mp (List.nodup_append.mp this).1).1).1
  rw [C22_cyclic_vars _ _ _ hnd, if_pos (h.excluded hc)]
  congr 1
  have es : fullName "states" = ("states." ++ ·) := by
    funext n; simp only [fullName]; congr 1
  have ei : fullName "inputs" = ("inputs." ++ ·) := by
    funext n; simp only [fullName]; congr 1
  unfold cyclicPairs
  rw [← es, ← ei]
  simp only [List.filter_append, List.map_append, List.filter_map, List.map_map, Function.comp_def]

theorem cyclicCons_ok {S : Setup} {D : List ℝ → ℝ → Prop} (h : S.Good D) (hc : S.isCyclic = true) :
    ∃ c, S.cyclicCons = .ok c ∧ GoodCons S.c.o.L.numDec (ones S.c.o.L.numDec) c
      ∧ c.numCon = (cyclicPairs S).length
      ∧ c.con = valueOf (cyclicConstraint S.c.o.L ((cyclicPairs S).map fun p => fullName p.1 p.2))
      ∧ ∀ y : List ℝ, y.length = S.c.o.L.numDec → c.con y = (cyclicPairs S).map fun p =>
        y.getD (posAt S.c.o.L 0 p) 0 - y.getD (posAt S.c.o.L (S.c.o.L.numStages - 1) p) 0 := by
  have hL := h.cond.ocp.made
  have hne := cyclicPairs_ne h hc
  have hv := cyclicPairs_var h hc
  unfold Setup.cyclicCons
  dsimp only
  rw [getNames_ok h (by simp), getNames_ok h (by simp)]
  simp only [bind, Except.bind]
  rw [cyclicVars_ok h hc]
  dsimp only
  generalize cyclicPairs S = ps at hne hv ⊢
  generalize hvars : ps.map (fun p => fullName p.1 p.2) = vars
  have hlen : vars.length = ps.length := by rw [← hvars]; simp
  have hval : ∀ y : List ℝ, y.length = S.c.o.L.numDec → cyclicConstraint S.c.o.L vars y
      = .ok (valueOf (cyclicConstraint S.c.o.L vars) y) := by
    intro y hy
    obtain ⟨c, e, _⟩ := C22_constraint_value hL ps hne hv y hy
    rw [hvars] at e
    simp only [valueOf, e]
  have hidx := cyclicIndices_ok hL ps hne hv
  rw [hvars] at hidx
  have hposlt : ∀ p ∈ ps, posAt S.c.o.L 0 p < S.c.o.L.numDec ∧ posAt S.c.o.L (S.c.o.L.numStages - 1) p < S.c.o.L.numDec := by
    intro p hp
    obtain ⟨⟨_, hv1⟩, _⟩ := hv p hp
    have := numStages_pos S.c.o.L
    exact ⟨(posAt_query hL ⟨by omega, hv1⟩).2, (posAt_query hL ⟨by omega, hv1⟩).2⟩
  have hform : ∀ y : List ℝ, y.length = S.c.o.L.numDec → valueOf (cyclicConstraint S.c.o.L vars) y
      = ps.map fun p => y.getD (posAt S.c.o.L 0 p) 0 - y.getD (posAt S.c.o.L (S.c.o.L.numStages - 1) p) 0 := by
    intro y hy
    unfold valueOf cyclicConstraint
    rw [hidx]
    simp only [bind, Except.bind]
    rw [gather_ok' y _ (by simp only [List.mem_map]; rintro i ⟨p, hp, rfl⟩; rw [hy]; exact (hposlt p hp).1),
      gather_ok' y _ (by simp only [List.mem_map]; rintro i ⟨p, hp, rfl⟩; rw [hy]; exact (hposlt p hp).2)]
    simp only [pure, Except.pure]
    simp [List.zipWith_map_left, List.zipWith_map_right, List.zipWith_self]
  obtain ⟨rows, cols, vals, s1, s2, s3, s4, s5, s6, _⟩ := C22_jacobian hL ps hne hv _
    (by rw [hvars]; exact hval) (ones S.c.o.L.numDec) (by simp [ones])
  rw [hvars] at s1 s2
  have hjac : ∀ y : List ℝ, cyclicJacobian S.c.o.L vars y = .ok vals := by
    intro y
    rw [← s2]
    rfl
  rw [s1]
  dsimp only
  have hl2 : ∀ y : List ℝ, y.length = S.c.o.L.numDec → (valueOf (cyclicConstraint S.c.o.L vars) y).length = vars.length := by
    intro y hy
    rw [hform y hy, hlen]; simp
  obtain ⟨c, c1, c2, c3, c4⟩ := makeLinear_good (n := S.c.o.L.numDec) (m := vars.length)
    (con := valueOf (cyclicConstraint S.c.o.L vars)) (jac := valueOf (cyclicJacobian S.c.o.L vars))
    (js := (rows, cols)) (vals := vals) (cache := true)
    (M := fun r j => (if j = posAt S.c.o.L 0 (ps.getD r ("", "")) then 1 else 0)
      - if j = posAt S.c.o.L (S.c.o.L.numStages - 1) (ps.getD r ("", "")) then 1 else 0) (b := fun _ => 0)
    ⟨⟨by dsimp only; omega, by rw [hlen]; exact s5, s6⟩, fun y hy => ⟨hl2 y hy, s3.symm, fun _ => by
      obtain ⟨rows', cols', vals', t1, t2, _, _, _, _, t7⟩ := C22_jacobian hL ps hne hv _
        (by rw [hvars]; exact hval) y hy
      rw [hvars] at t1 t2
      rw [s1] at t1
      rw [hjac y] at t2
      simp only [Except.ok.injEq, Prod.mk.injEq] at t1 t2
      obtain ⟨rfl, rfl⟩ := t1
      subst t2
      rw [hlen]
      exact t7⟩⟩
    (fun y hy => ⟨hl2 y hy, fun r hr => by
      rw [hform y hy]
      have hr' : r < ps.length := by omega
      have e1 : (ps.map fun p => y.getD (posAt S.c.o.L 0 p) 0 - y.getD (posAt S.c.o.L (S.c.o.L.numStages - 1) p) 0).getD r 0
          = y.getD (posAt S.c.o.L 0 ps[r]) 0 - y.getD (posAt S.c.o.L (S.c.o.L.numStages - 1) ps[r]) 0 := by
        rw [List.getD_eq_getElem?_getD, List.getElem?_map, List.getElem?_eq_getElem hr']
        rfl
      have e2 : ps.getD r ("", "") = ps[r] := by
        rw [List.getD_eq_getElem?_getD, List.getElem?_eq_getElem hr']
        rfl
      obtain ⟨l1, l2⟩ := hposlt ps[r] (List.getElem_mem hr')
      dsimp only
      rw [e1, e2, sum_range_list]
      simp only [sub_mul, ite_mul, one_mul, zero_mul, Finset.sum_sub_distrib, Finset.sum_ite_eq', Finset.mem_range, l1, l2,
        if_true, add_zero]⟩)
    (fun y _ => by simp only [valueOf, hjac y])
  exact ⟨c, c1, c2, c3.trans hlen, c4, fun y hy => by rw [c4]; exact hform y hy⟩

end Lumos.Ocp
