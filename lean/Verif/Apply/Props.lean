import Verif.Apply.Model
import Verif.Params.Props

/-!
# C114: evaluating a model with given parameters
-/

namespace Lumos.Trees.Apply

open Lumos

variable {V D X R Y : Type}

/-! ## Specification -/

/-- The parameters that a call hands over, if any. -/
def Op.given : Op V D X → Option (Tree V)
  | .set t => some t
  | .apply _ t => some t
  | .applyArrays _ t => some t
  | .forward _ => none
  | .forwardArrays _ => none

/-- The parameters handed over last, `start` if there were none. -/
def lastGiven (start : Tree V) (ops : List (Op V D X)) : Tree V := (ops.filterMap Op.given).getLast?.getD start

/-- What evaluating with parameters `t` means: the model's equations with `t` for its parameters. -/
def Obj.meaning (o : Obj V D X R Y) (t : Tree V) (a : D) : Py (Answer R Y) := (o.forward t a).map .dict

/-- The same with arrays. -/
def Obj.meaningArrays (o : Obj V D X R Y) (t : Tree V) (a : X) : Py (Answer R Y) := (o.forwardArrays t a).map .arrays

/-! ## Proofs -/

/-- What every call keeps: the class, its equations, and which parameter trees have the structure of the model. -/
structure Kept (o o' : Obj V D X R Y) : Prop where
  ss : o'.stateSpace = o.stateSpace
  fwd : o'.forward = o.forward
  arr : o'.forwardArrays = o.forwardArrays
  wf : o'.mod.WF
  fits : ∀ t, Mod.Fits o.mod t → Mod.Fits o'.mod t

theorem Kept.trans {a b c : Obj V D X R Y} (h : Kept a b) (h' : Kept b c) : Kept a c :=
  ⟨h'.ss.trans h.ss, h'.fwd.trans h.fwd, h'.arr.trans h.arr, h'.wf, fun t ht => h'.fits t (h.fits t ht)⟩

theorem kept_set (o : Obj V D X R Y) (hm : o.mod.WF) (t : Tree V) : Kept o { o with mod := (Mod.setParams o.mod t).1 } :=
  ⟨rfl, rfl, rfl, (Mod.C42_structure_kept hm t).1, fun _ hu => OcpParams.fits_setParams hm t hu⟩

/-- The object after one call, whatever the call returns. -/
theorem step_obj (o : Obj V D X R Y) (op : Op V D X) :
    (o.step op).1 = match op.given with
      | some t => { o with mod := (Mod.setParams o.mod t).1 }
      | none => o := by
  cases op with
  | set t =>
    cases h : Mod.setParams o.mod t with
    | mk m e => cases e <;> simp [Obj.step, Op.given, h]
  | forward a => rfl
  | forwardArrays a => rfl
  | apply a t =>
    cases h : Mod.setParams o.mod t with
    | mk m e => cases e <;> simp [Obj.step, Obj.applyAndForward, Op.given, h]
  | applyArrays a t =>
    cases h : Mod.setParams o.mod t with
    | mk m e =>
      cases e
      · cases hs : o.stateSpace <;> simp [Obj.step, Obj.applyAndForwardWithArrays, Op.given, h, hs]
      · simp [Obj.step, Obj.applyAndForwardWithArrays, Op.given, h]

theorem kept_step (o : Obj V D X R Y) (hm : o.mod.WF) (op : Op V D X) : Kept o (o.step op).1 := by
  rw [step_obj]
  cases op.given with
  | none => exact ⟨rfl, rfl, rfl, hm, fun _ h => h⟩
  | some t => exact kept_set o hm t

theorem kept_after (ops : List (Op V D X)) : ∀ (o : Obj V D X R Y), o.mod.WF → Kept o (o.after ops) := by
  induction ops with
  | nil => exact fun o hm => ⟨rfl, rfl, rfl, hm, fun _ h => h⟩
  | cons op ops ih => exact fun o hm => (kept_step o hm op).trans (ih _ (kept_step o hm op).wf)

/-- **C114 (the parameters held).** After any calls that handed over only trees of the model's structure, the model holds the
parameters handed over last: `apply_and_forward` changes the model for good, also when the evaluation raised. -/
theorem C114_current (ops : List (Op V D X)) (o : Obj V D X R Y) (hm : o.mod.WF)
    (hf : ∀ op ∈ ops, ∀ t, op.given = some t → Mod.Fits o.mod t) :
    Mod.getParams (o.after ops).mod = lastGiven (Mod.getParams o.mod) ops := by
  induction ops generalizing o with
  | nil => rfl
  | cons op ops ih =>
    have hk := kept_step o hm op
    rw [Obj.after, ih _ hk.wf fun p hp t ht => hk.fits t (hf p (List.mem_cons_of_mem _ hp) t ht), step_obj]
    cases hg : op.given with
    | none => simp [lastGiven, hg]
    | some t =>
      have := (Mod.C42_round_trip hm (hf op (by simp) t hg)).2
      simp only [lastGiven, List.filterMap_cons, hg, this]
      rw [List.getLast?_cons]
      simp

/-- **C114 (evaluation with parameters).** Whatever was called before, and whatever of it raised: `apply_and_forward` with a
parameter tree of the model's structure answers what the model's equations give with exactly these parameters, and
`apply_and_forward_with_arrays` of a state-space model likewise; afterwards the model holds these parameters. -/
theorem C114_apply (ops : List (Op V D X)) (o : Obj V D X R Y) (hm : o.mod.WF) {t : Tree V} (ht : Mod.Fits o.mod t) :
    (∀ a, ((o.after ops).step (.apply a t)).2 = o.meaning t a)
    ∧ (o.stateSpace = true → ∀ a, ((o.after ops).step (.applyArrays a t)).2 = o.meaningArrays t a)
    ∧ (∀ a, Mod.getParams ((o.after ops).step (.apply a t)).1.mod = t)
    ∧ ∀ a, Mod.getParams ((o.after ops).step (.applyArrays a t)).1.mod = t := by
  have hk := kept_after ops o hm
  obtain ⟨h1, h2⟩ := Mod.C42_round_trip hk.wf (hk.fits t ht)
  have e : Mod.setParams (o.after ops).mod t = ((Mod.setParams (o.after ops).mod t).1, none) := Prod.ext rfl h1
  refine ⟨fun a => ?_, fun hs a => ?_, fun a => ?_, fun a => ?_⟩
  · simp only [Obj.step, Obj.applyAndForward]
    rw [e]
    simp only [Obj.callForward, h2, hk.fwd, Obj.meaning]
    cases o.forward t a <;> rfl
  · simp only [Obj.step, Obj.applyAndForwardWithArrays]
    rw [e]
    simp only [hk.ss, hs, if_true, Obj.callArrays, h2, hk.arr, Obj.meaningArrays]
    cases o.forwardArrays t a <;> rfl
  · rw [step_obj]; exact h2
  · rw [step_obj]; exact h2

/-- **C114 (evaluation without parameters).** After calls that handed over only trees of the model's structure, `forward` and
`forward_with_arrays` answer what the equations give with the parameters handed over last, and leave the model as it is. -/
theorem C114_forward (ops : List (Op V D X)) (o : Obj V D X R Y) (hm : o.mod.WF)
    (hf : ∀ op ∈ ops, ∀ t, op.given = some t → Mod.Fits o.mod t) :
    (∀ a, (o.after ops).step (.forward a) = (o.after ops, o.meaning (lastGiven (Mod.getParams o.mod) ops) a))
    ∧ ∀ a, (o.after ops).step (.forwardArrays a) = (o.after ops, o.meaningArrays (lastGiven (Mod.getParams o.mod) ops) a) := by
  have hk := kept_after ops o hm
  refine ⟨fun a => ?_, fun a => ?_⟩
  · simp only [Obj.step, Obj.callForward, C114_current ops o hm hf, hk.fwd, Obj.meaning]
    cases o.forward (lastGiven (Mod.getParams o.mod) ops) a <;> rfl
  · simp only [Obj.step, Obj.callArrays, C114_current ops o hm hf, hk.arr, Obj.meaningArrays]
    cases o.forwardArrays (lastGiven (Mod.getParams o.mod) ops) a <;> rfl

/-- **C114 (a tree of the wrong structure).** A call with a parameter tree that lacks a child raises KeyError and evaluates
nothing, whatever was called before. -/
theorem C114_missing (ops : List (Op V D X)) (o : Obj V D X R Y) (hm : o.mod.WF) {t : Tree V} (ht : Mod.Params t)
    (h : ∃ ns m₁ e, Mod.getNames o.mod ns = .ok m₁ ∧ t.getNames ns = .error e) :
    (∀ a, ((o.after ops).step (.apply a t)).2 = .error .keyError)
    ∧ (∀ a, ((o.after ops).step (.applyArrays a t)).2 = .error .keyError)
    ∧ ((o.after ops).step (.set t)).2 = .error .keyError := by
  have same : ∀ (ops : List (Op V D X)) (o : Obj V D X R Y), o.mod.WF → (∃ ns m₁ e, Mod.getNames o.mod ns = .ok m₁ ∧
      t.getNames ns = .error e) → ∃ ns m₁ e, Mod.getNames (o.after ops).mod ns = .ok m₁ ∧ t.getNames ns = .error e := by
    intro ops
    induction ops with
    | nil => exact fun o _ h => h
    | cons op ops ih =>
      intro o hm h
      refine ih _ (kept_step o hm op).wf ?_
      rw [step_obj]
      obtain ⟨ns, m₁, e, h1, h2⟩ := h
      cases op.given with
      | none => exact ⟨ns, m₁, e, h1, h2⟩
      | some u =>
        obtain ⟨m₂, h3, _⟩ := ((Mod.C42_structure_kept hm u).2 ns).1 m₁ h1
        exact ⟨ns, m₂, e, h3, h2⟩
  have hk := kept_after ops o hm
  have he := Mod.C42_missing_child hk.wf ht (same ops o hm h)
  have e : Mod.setParams (o.after ops).mod t = ((Mod.setParams (o.after ops).mod t).1, some .keyError) := Prod.ext rfl he
  refine ⟨fun a => ?_, fun a => ?_, ?_⟩
  · simp only [Obj.step, Obj.applyAndForward]; rw [e]
  · simp only [Obj.step, Obj.applyAndForwardWithArrays]; rw [e]
  · simp only [Obj.step]; rw [e]

/-- **C114 (finding: stateless models have no array form).** `apply_and_forward_with_arrays` of a model without states raises
AttributeError for every argument and every parameter tree of its structure — it calls `forward_with_array`, which does not
exist — although `forward_with_arrays` with the same parameters and arguments may answer; and the model's parameters have
been replaced nevertheless. -/
theorem C114_stateless (ops : List (Op V D X)) (o : Obj V D X R Y) (hm : o.mod.WF) (hs : o.stateSpace = false) {t : Tree V}
    (ht : Mod.Fits o.mod t) (a : X) :
    ((o.after ops).step (.applyArrays a t)).2 = .error .attributeError
    ∧ Mod.getParams ((o.after ops).step (.applyArrays a t)).1.mod = t
    ∧ (((o.after ops).step (.set t)).1.step (.forwardArrays a)).2 = o.meaningArrays t a := by
  have hk := kept_after ops o hm
  obtain ⟨h1, h2⟩ := Mod.C42_round_trip hk.wf (hk.fits t ht)
  have e : Mod.setParams (o.after ops).mod t = ((Mod.setParams (o.after ops).mod t).1, none) := Prod.ext rfl h1
  refine ⟨?_, (C114_apply ops o hm ht).2.2.2 a, ?_⟩
  · simp only [Obj.step, Obj.applyAndForwardWithArrays]
    rw [e]
    simp [hk.ss, hs]
  · rw [step_obj]
    simp only [Op.given, Obj.step, Obj.callArrays, h2, hk.arr, Obj.meaningArrays]
    cases o.forwardArrays t a <;> rfl

/-! ## A concrete model: `force = cd * v * v`, a leaf with one parameter -/

/-- The class of the example. -/
def dragClass : ClassDef Nat := ⟨"Drag", [], [("cd", .val 1)]⟩

/-- The tree with `cd = c`. -/
def dragParams (c : Nat) : Tree Nat := .node (.dict [("cd", .val c)]) []

/-- The equation of the example. -/
def dragForce (t : Tree Nat) (v : Nat) : Py Nat :=
  match t.data with
  | .dict [("cd", .val c)] => .ok (c * v * v)
  | _ => .error .keyError

/-- The object of the example, with `cd = 1`. -/
def drag (ss : Bool) : Obj Nat Nat Nat Nat Nat := ⟨ss, .node dragClass [("cd", .val 1)] [], dragForce, dragForce⟩

theorem drag_wf (ss : Bool) : (drag ss).mod.WF := .node _ _ _ (fun _ => rfl) (by simp [Dict.keys]) (by simp)

theorem drag_fits (ss : Bool) (c : Nat) : Mod.Fits (drag ss).mod (dragParams c) := by
  simp [drag, dragParams, Mod.Fits, Mod.FitsL]

/-- **C114 (finding: it is not a query).** `apply_and_forward` leaves its parameters in the model: the same `forward(v)`
answers differently before and after an `apply_and_forward` with other parameters. -/
theorem C114_not_a_query : ∃ (o : Obj Nat Nat Nat Nat Nat) (t : Tree Nat), o.mod.WF ∧ Mod.Fits o.mod t ∧ o.stateSpace = true ∧
    (o.step (.forward 3)).2 = .ok (.dict 9) ∧ (o.step (.apply 3 t)).2 = .ok (.dict 18) ∧
    ((o.step (.apply 3 t)).1.step (.forward 3)).2 = .ok (.dict 18) :=
  ⟨drag true, dragParams 2, drag_wf true, drag_fits true 2, rfl, by decide +kernel, by decide +kernel, by decide +kernel⟩

/-- The hypotheses of the general theorems at a history with three parameter trees, and what they say there. -/
example : (drag true).mod.WF ∧ (∀ c, Mod.Fits (drag true).mod (dragParams c)) ∧
    (((drag true).after [.apply 1 (dragParams 5), .applyArrays 2 (dragParams 7), .forward 4]).step (.forwardArrays 2)).2
      = .ok (.arrays 28) ∧
    (((drag false).after [.applyArrays 2 (dragParams 7)]).step (.forward 2)).2 = .ok (.dict 28) :=
  ⟨drag_wf true, drag_fits true, by decide +kernel, by decide +kernel⟩

/-- A car with the drag model inside, and a tree without a child for it: the hypotheses of the theorem about missing
children. -/
example : let o : Obj Nat Nat Nat Nat Nat :=
      ⟨true, .node ⟨"Car", [("aero", "Drag")], []⟩ [] [("aero", (drag true).mod)], fun _ _ => .ok 0, fun _ _ => .ok 0⟩
    o.mod.WF ∧ Mod.Params (.node (.dict []) [] : Tree Nat) ∧
      ∃ ns m₁ e, Mod.getNames o.mod ns = .ok m₁ ∧ (Tree.node (.dict []) [] : Tree Nat).getNames ns = .error e := by
  refine ⟨.node _ _ _ (by simp [ClassDef.isLeaf, ClassDef.submodelNames, Dict.keys]) (by simp [Dict.keys]) ?_,
    .node _ _ (by simp), ["aero"], (drag true).mod, .keyError, by simp [Mod.getNames, Mod.subs], by
      simp [Tree.getNames, Tree.children]⟩
  intro q hq
  simp only [List.mem_singleton] at hq
  subst hq
  exact drag_wf true

end Lumos.Trees.Apply
