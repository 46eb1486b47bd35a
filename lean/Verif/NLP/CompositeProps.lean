import Verif.NLP.CompositeLemmas
/-!
# C12–C16: `CompositeProblem` over every history of additions, deletions and rescalings
-/

namespace Lumos.NLP

open Lumos

/-! ## Specification: histories -/

/-- One call on the problem. -/
inductive Op
  | addCon (name : String) (c : Cons)
  | delCon (name : String)
  | addObj (name : String) (o : Obj)
  | delObj (name : String)
  | setScales (s : List ℝ)
  | setConScales (name : String) (k : List ℝ)
  | queryHessStructure
  | evalHess (x lam : List ℝ) (sigma : ℝ)

/-- The problem after the call, and the exception raised. -/
noncomputable def Prob.step (p : Prob) : Op → Prob × Option PyErr
  | .addCon name c => p.addConstraints name c
  | .delCon name => p.deleteConstraints name
  | .addObj name o => p.addObjective name o
  | .delObj name => p.deleteObjective name
  | .setScales s => p.setScales s
  | .setConScales name k => p.setConScales name k
  | .queryHessStructure => (p.hessianstructure.1, none)
  | .evalHess x lam sigma => ((p.hessian x lam sigma).1, none)

noncomputable def Prob.runAll (p : Prob) (ops : List Op) : Prob := ops.foldl (fun p o => (p.step o).1) p

/-- The upper triangle: the only part of a Hessian that IPOPT reads. -/
def Upper (i j : Nat) : Prop := i ≤ j

/-- A constraint object on `n` inputs whose callables are right (their derivatives at the points of `D`) and whose scales are `s` (inputs) and
something non-zero (constraints). `goodCons_of_make` shows every constructed and rescaled object is one. -/
def GoodCons (n : Nat) (s : List ℝ) (c : Cons) (D : List ℝ → Prop := fun _ => True) : Prop :=
  ∃ con jac hess js hs k, c = Cons.stateOf n c.numCon con jac hess js hs s k
    ∧ UserJac n c.numCon con jac js D ∧ UserHess n c.numCon con hess hs Upper D
    ∧ (s.length = n ∧ ∀ a ∈ s, a ≠ 0) ∧ (k.length = c.numCon ∧ ∀ a ∈ k, a ≠ 0)

def GoodObj (n : Nat) (s : List ℝ) (o : Obj) (D : List ℝ → Prop := fun _ => True) : Prop :=
  ∃ f g h st, o = Obj.stateOf n f g h st s ∧ UserObj n f g h st Upper D ∧ (s.length = n ∧ ∀ a ∈ s, a ≠ 0)

theorem GoodCons.mono {n : Nat} {s : List ℝ} {c : Cons} {D D' : List ℝ → Prop} (h : GoodCons n s c D)
    (hd : ∀ y, D' y → D y) : GoodCons n s c D' := by
  obtain ⟨con, jac, hess, js, hs, k, h1, h2, h3, h4⟩ := h
  exact ⟨con, jac, hess, js, hs, k, h1, h2.mono hd, h3.mono hd, h4⟩

theorem GoodObj.mono {n : Nat} {s : List ℝ} {o : Obj} {D D' : List ℝ → Prop} (h : GoodObj n s o D)
    (hd : ∀ y, D' y → D y) : GoodObj n s o D' := by
  obtain ⟨f, g, h', st, h1, h2, h3⟩ := h
  exact ⟨f, g, h', st, h1, h2.mono hd, h3⟩

/-- What a caller must respect: components are correct objects (constraints may have any number of inputs;
objectives must have the problem's, since the code does not check), scale arrays have the right length and
no zero. -/
def GoodStep (p : Prob) (o : Op) (D : List ℝ → Prop := fun _ => True) : Prop :=
  match o with
  | .addCon _ c => ∃ s, GoodCons c.numIn s c D
  | .addObj _ o => ∃ s, GoodObj p.numDec s o D
  | .setScales s => s.length = p.numDec ∧ ∀ a ∈ s, a ≠ 0
  | .setConScales name k => ∀ c, (name, c) ∈ p.cons → k.length = c.numCon ∧ ∀ a ∈ k, a ≠ 0
  | _ => True

def GoodHistory (p : Prob) (ops : List Op) (D : List ℝ → Prop := fun _ => True) : Prop :=
  match ops with
  | [] => True
  | o :: os => GoodStep p o D ∧ GoodHistory (p.step o).1 os D

/-- A problem reachable from a fresh one on `n` decision variables, with components whose derivatives are right at the points (in
unscaled variables) of `D`. -/
def Reachable (n : Nat) (p : Prob) (D : List ℝ → Prop := fun _ => True) : Prop := ∃ ops, GoodHistory (Prob.init n) ops D ∧ p = (Prob.init n).runAll ops

theorem GoodHistory.mono {D D' : List ℝ → Prop} (hd : ∀ y, D' y → D y) {ops : List Op} :
    ∀ {p : Prob}, GoodHistory p ops D → GoodHistory p ops D' := by
  induction ops with
  | nil => intro p _; trivial
  | cons o os ih =>
    rintro p ⟨h1, h2⟩
    refine ⟨?_, ih h2⟩
    cases o with
    | addCon _ c => exact h1.imp fun _ h => h.mono hd
    | addObj _ o => exact h1.imp fun _ h => h.mono hd
    | _ => exact h1

theorem Reachable.mono {n : Nat} {p : Prob} {D D' : List ℝ → Prop} (h : Reachable n p D) (hd : ∀ y, D' y → D y) :
    Reachable n p D' := by
  obtain ⟨ops, h1, h2⟩ := h
  exact ⟨ops, h1.mono hd, h2⟩

/-- Insertion order of the constraint names, as a user would keep it by hand: an accepted addition appends
the name, a deletion removes it. -/
def orderStep (n : Nat) (names : List String) : Op → List String
  | .addCon name c => if name ∈ names ∨ c.numIn ≠ n then names else names ++ [name]
  | .delCon name => names.filter (· ≠ name)
  | _ => names

def insertionOrder (n : Nat) (ops : List Op) : List String := ops.foldl (orderStep n) []

variable {D : List ℝ → Prop}

/-! ## Constructed objects are good -/

theorem goodCons_of_make {n m : Nat} {con jac : List ℝ → List ℝ} {hess : List ℝ → List ℝ → List ℝ}
    {js hs : Option (List Nat × List Nat)} {c : Cons} (hc : Cons.make n m con jac hess js hs = .ok c)
    (hj : UserJac n m con jac (declared js m n) D) (hh : UserHess n m con hess (declared hs n n) Upper D)
    (ops : List ScaleOp) (ho : ∀ o ∈ ops, GoodOp n m o) :
    GoodCons n (lastInput (List.replicate n 1) ops) (c.runAll ops) D := by
  rw [make_eq hj.1 hh.1] at hc
  cases hc
  rw [runAll_eq hj.1 hh.1 (ones_good n) (ones_good m) ops ho]
  obtain ⟨g1, g2⟩ := last_good (ones_good n) (ones_good m) ops ho
  exact ⟨con, jac, hess, _, _, _, rfl, hj, hh, g1, g2⟩

theorem goodObj_of_make {n : Nat} {f : List ℝ → ℝ} {g h : List ℝ → List ℝ} {hs : Option (List Nat × List Nat)}
    {o : Obj} (hc : Obj.make n f g h hs = .ok o) (hu : UserObj n f g h (declared hs n n) Upper D) :
    GoodObj n (List.replicate n 1) o D := by
  rw [obj_make_eq hu.1] at hc
  cases hc
  exact ⟨f, g, h, _, rfl, hu, ones_good n⟩

/-! ## The invariant -/

structure Inv (n : Nat) (p : Prob) (D : List ℝ → Prop := fun _ => True) : Prop where
  dec : p.numDec = n
  scales : p.scales.length = n ∧ ∀ a ∈ p.scales, a ≠ 0
  consNodup : (p.cons.map Prod.fst).Nodup
  objsNodup : (p.objs.map Prod.fst).Nodup
  cons : ∀ c ∈ p.cons, GoodCons n p.scales c.2 D
  objs : ∀ o ∈ p.objs, GoodObj n p.scales o.2 D

theorem hasKey_iff {α : Type} (d : List (String × α)) (name : String) :
    hasKey d name = true ↔ name ∈ d.map Prod.fst := by
  simp [hasKey, List.mem_map]

theorem GoodCons.numIn {n : Nat} {s : List ℝ} {c : Cons} (h : GoodCons n s c D) : c.numIn = n := by
  obtain ⟨con, jac, hess, js, hs, k, he, _⟩ := h
  rw [he]; rfl

theorem GoodCons.setInput {n : Nat} {s : List ℝ} {c : Cons} (h : GoodCons n s c D) {s' : List ℝ}
    (hs' : s'.length = n ∧ ∀ a ∈ s', a ≠ 0) :
    (c.setInputScales s').2 = none ∧ GoodCons n s' (c.setInputScales s').1 D
      ∧ (c.setInputScales s').1.numCon = c.numCon := by
  obtain ⟨con, jac, hess, js, hs, k, he, hj, hh, g1, g2⟩ := h
  have := run_eq (con := con) (jac := jac) (hess := hess) hj.1 hh.1 g1.1 g2.1 (.setInput s') hs'
  simp only [Cons.run, lastInput, lastCon, List.foldl_cons, List.foldl_nil] at this
  rw [← he] at this
  rw [this]
  exact ⟨rfl, ⟨con, jac, hess, js, hs, k, rfl, hj, hh, hs', g2⟩, rfl⟩

theorem GoodCons.setCon {n : Nat} {s : List ℝ} {c : Cons} (h : GoodCons n s c D) {k' : List ℝ}
    (hk' : k'.length = c.numCon ∧ ∀ a ∈ k', a ≠ 0) :
    (c.setConScales k').2 = none ∧ GoodCons n s (c.setConScales k').1 D
      ∧ (c.setConScales k').1.numCon = c.numCon := by
  obtain ⟨con, jac, hess, js, hs, k, he, hj, hh, g1, g2⟩ := h
  have := run_eq (con := con) (jac := jac) (hess := hess) hj.1 hh.1 g1.1 g2.1 (.setCon k') hk'
  simp only [Cons.run, lastInput, lastCon, List.foldl_cons, List.foldl_nil] at this
  rw [← he] at this
  rw [this]
  exact ⟨rfl, ⟨con, jac, hess, js, hs, k', rfl, hj, hh, g1, hk'⟩, rfl⟩

theorem GoodObj.setInput {n : Nat} {s : List ℝ} {o : Obj} (h : GoodObj n s o D) {s' : List ℝ}
    (hs' : s'.length = n ∧ ∀ a ∈ s', a ≠ 0) :
    (o.setInputScales s').2 = none ∧ GoodObj n s' (o.setInputScales s').1 D := by
  obtain ⟨f, g, hh, st, he, hu, g1⟩ := h
  have := obj_set_eq (f := f) (g := g) (h := hh) hu.1 (s := s) hs'.1
  rw [← he] at this
  rw [this]
  exact ⟨rfl, ⟨f, g, hh, st, rfl, hu, hs'⟩⟩

theorem applyAll_good {α : Type} (f : α → α × Option PyErr) (Q Q' : α → Prop)
    (hf : ∀ a, Q a → (f a).2 = none ∧ Q' (f a).1) (d : List (String × α)) (hd : ∀ a ∈ d, Q a.2) :
    (applyAll f d).2 = none ∧ (applyAll f d).1.map Prod.fst = d.map Prod.fst
      ∧ (∀ a ∈ (applyAll f d).1, Q' a.2) ∧ (applyAll f d).1 = d.map (fun a => (a.1, (f a.2).1)) := by
  induction d with
  | nil => simp [applyAll]
  | cons a d ih =>
    obtain ⟨k, a⟩ := a
    obtain ⟨h1, h2⟩ := hf a (hd (k, a) (by simp))
    obtain ⟨i1, i2, i3, i4⟩ := ih (fun b hb => hd b (by simp [hb]))
    have e : f a = ((f a).1, none) := by rw [← h1]
    unfold applyAll
    rw [e]
    refine ⟨i1, by simp [i2], ?_, by simp [i4]⟩
    intro b hb
    simp only [List.mem_cons] at hb
    rcases hb with rfl | hb
    · exact h2
    · exact i3 b hb

theorem inv_init (n : Nat) : Inv n (Prob.init n) D :=
  ⟨rfl, ones_good n, by simp [Prob.init], by simp [Prob.init], by simp [Prob.init], by simp [Prob.init]⟩

theorem hessianstructure_fields (p : Prob) : p.hessianstructure.1.cons = p.cons
    ∧ p.hessianstructure.1.objs = p.objs ∧ p.hessianstructure.1.scales = p.scales
    ∧ p.hessianstructure.1.numDec = p.numDec := by
  unfold Prob.hessianstructure
  split <;> simp

theorem hessian_fields (p : Prob) (x lam : List ℝ) (sg : ℝ) : (p.hessian x lam sg).1.cons = p.cons
    ∧ (p.hessian x lam sg).1.objs = p.objs ∧ (p.hessian x lam sg).1.scales = p.scales
    ∧ (p.hessian x lam sg).1.numDec = p.numDec := by
  have key : (p.hessian x lam sg).1 = p ∨ (p.hessian x lam sg).1 = p.hessianstructure.1 := by
    unfold Prob.hessian
    cases hq : p.idxTriu with
    | some m =>
      left
      dsimp only
      split
      · rfl
      · split <;> rfl
    | none =>
      right
      dsimp only
      cases hr : p.hessianstructure.2 with
      | error e => rfl
      | ok v =>
        dsimp only
        split
        · rfl
        · split <;> rfl
  rcases key with h | h <;> rw [h]
  · exact ⟨rfl, rfl, rfl, rfl⟩
  · exact hessianstructure_fields p

theorem inv_step {n : Nat} {p : Prob} (h : Inv n p D) (o : Op) (ho : GoodStep p o D) : Inv n (p.step o).1 D := by
  cases o with
  | addCon name c =>
    simp only [Prob.step, Prob.addConstraints]
    split
    · exact h
    · rename_i hk
      split
      · exact h
      · rename_i hn
        obtain ⟨s, hg⟩ := ho
        have hn' : c.numIn = n := by rw [← h.dec]; simpa using hn
        rw [hn'] at hg
        obtain ⟨a1, a2, a3⟩ := hg.setInput h.scales
        have e : c.setInputScales p.scales = ((c.setInputScales p.scales).1, none) := by rw [← a1]
        rw [e]
        refine ⟨h.dec, h.scales, ?_, h.objsNodup, ?_, h.objs⟩
        · have : name ∉ p.cons.map Prod.fst := by rw [← hasKey_iff]; exact hk
          simp only [List.map_append, List.map_cons, List.map_nil]
          rw [List.nodup_append]
          refine ⟨h.consNodup, by simp, ?_⟩
          intro a ha b hb
          simp only [List.mem_singleton] at hb
          subst hb
          rintro rfl
          exact this ha
        · intro d hd
          simp only [List.mem_append, List.mem_singleton] at hd
          rcases hd with hd | rfl
          · exact h.cons d hd
          · exact a2
  | delCon name =>
    simp only [Prob.step, Prob.deleteConstraints]
    split
    · refine ⟨h.dec, h.scales, ?_, h.objsNodup, ?_, h.objs⟩
      · exact h.consNodup.sublist (List.Sublist.map _ List.filter_sublist)
      · intro c hc
        exact h.cons c (List.mem_filter.mp hc).1
    · exact h
  | addObj name o =>
    simp only [Prob.step, Prob.addObjective]
    split
    · exact h
    · rename_i hk
      obtain ⟨s, hg⟩ := ho
      rw [h.dec] at hg
      obtain ⟨a1, a2⟩ := hg.setInput h.scales
      have e : o.setInputScales p.scales = ((o.setInputScales p.scales).1, none) := by rw [← a1]
      rw [e]
      refine ⟨h.dec, h.scales, h.consNodup, ?_, h.cons, ?_⟩
      · have : name ∉ p.objs.map Prod.fst := by rw [← hasKey_iff]; exact hk
        simp only [List.map_append, List.map_cons, List.map_nil]
        rw [List.nodup_append]
        refine ⟨h.objsNodup, by simp, ?_⟩
        intro a ha b hb
        simp only [List.mem_singleton] at hb
        subst hb
        rintro rfl
        exact this ha
      · intro d hd
        simp only [List.mem_append, List.mem_singleton] at hd
        rcases hd with hd | rfl
        · exact h.objs d hd
        · exact a2
  | delObj name =>
    simp only [Prob.step, Prob.deleteObjective]
    split
    · refine ⟨h.dec, h.scales, h.consNodup, ?_, h.cons, ?_⟩
      · exact h.objsNodup.sublist (List.Sublist.map _ List.filter_sublist)
      · intro c hc
        exact h.objs c (List.mem_filter.mp hc).1
    · exact h
  | setScales s =>
    have hs : s.length = n ∧ ∀ a ∈ s, a ≠ 0 := by
      have := ho
      simp only [GoodStep] at this
      rw [h.dec] at this
      exact this
    obtain ⟨b1, b2, b3, _⟩ := applyAll_good (fun o : Obj => o.setInputScales s) (fun o => GoodObj n p.scales o D) (fun o => GoodObj n s o D)
      (fun a ha => ha.setInput hs) p.objs h.objs
    obtain ⟨c1, c2, c3, _⟩ := applyAll_good (fun o : Cons => o.setInputScales s) (fun c => GoodCons n p.scales c D) (fun c => GoodCons n s c D)
      (fun a ha => ⟨(ha.setInput hs).1, (ha.setInput hs).2.1⟩) p.cons h.cons
    simp only [Prob.step, Prob.setScales, b1]
    exact ⟨h.dec, hs, by rw [c2]; exact h.consNodup, by rw [b2]; exact h.objsNodup, c3, b3⟩
  | setConScales name k =>
    simp only [Prob.step, Prob.setConScales]
    split
    · exact h
    · rename_i c hc
      have hm : c ∈ p.cons := List.mem_of_find?_eq_some hc
      have hname : c.1 = name := by simpa using List.find?_some hc
      have hk := ho c.2 (by rw [← hname]; exact hm)
      obtain ⟨a1, a2, a3⟩ := (h.cons c hm).setCon hk
      refine ⟨h.dec, h.scales, ?_, h.objsNodup, ?_, h.objs⟩
      · have e : (p.cons.map fun d => if d.1 == name then (d.1, (c.2.setConScales k).1) else d).map Prod.fst
            = p.cons.map Prod.fst := by
          rw [List.map_map]
          apply List.map_congr_left
          intro d _
          simp only [Function.comp]
          split <;> rfl
        rw [e]; exact h.consNodup
      · intro d hd
        obtain ⟨d', hd', rfl⟩ := List.mem_map.mp hd
        split
        · exact a2
        · exact h.cons d' hd'
  | queryHessStructure =>
    obtain ⟨e1, e2, e3, e4⟩ := hessianstructure_fields p
    simp only [Prob.step]
    exact ⟨by rw [e4]; exact h.dec, by rw [e3]; exact h.scales, by rw [e1]; exact h.consNodup,
      by rw [e2]; exact h.objsNodup, by rw [e1, e3]; exact h.cons, by rw [e2, e3]; exact h.objs⟩
  | evalHess x lam sg =>
    obtain ⟨e1, e2, e3, e4⟩ := hessian_fields p x lam sg
    simp only [Prob.step]
    exact ⟨by rw [e4]; exact h.dec, by rw [e3]; exact h.scales, by rw [e1]; exact h.consNodup,
      by rw [e2]; exact h.objsNodup, by rw [e1, e3]; exact h.cons, by rw [e2, e3]; exact h.objs⟩

theorem inv_runAll {n : Nat} {p : Prob} (h : Inv n p D) (ops : List Op) (ho : GoodHistory p ops D) :
    Inv n (p.runAll ops) D := by
  induction ops generalizing p with
  | nil => exact h
  | cons o os ih => exact ih (inv_step h o ho.1) ho.2

theorem Reachable.inv {n : Nat} {p : Prob} (h : Reachable n p D) : Inv n p D := by
  obtain ⟨ops, ho, rfl⟩ := h
  exact inv_runAll (inv_init n) ops ho

theorem GoodCons.facts {n : Nat} {s : List ℝ} {c : Cons} (h : GoodCons n s c D) :
    (StructIn c.jacStruct c.numCon n ∧ StructIn c.hessStruct n n) ∧ c.inScales = s ∧
    ∀ x : List ℝ, x.length = n → (c.constraints x).length = c.numCon
      ∧ (c.jacobian x).length = c.jacStruct.1.length
      ∧ (D (vmul x s) → IsJacobianAt n c.numCon c.constraints x (assemble c.jacStruct.1 c.jacStruct.2 (c.jacobian x)))
      ∧ ∀ lam : List ℝ, lam.length = c.numCon → (c.hessian x lam).length = c.hessStruct.1.length
        ∧ (D (vmul x s) → IsHessianAt n (fun y => dot lam (c.constraints y)) x Upper
            (assemble c.hessStruct.1 c.hessStruct.2 (c.hessian x lam))) := by
  obtain ⟨con, jac, hess, js, hs, k, he, hj, hh, g1, g2⟩ := h
  generalize hm : c.numCon = m at *
  subst he
  refine ⟨⟨hj.1, hh.1⟩, rfl, ?_⟩
  intro x hx
  have hy : (vmul x s).length = n := by simp [hx, g1.1]
  refine ⟨?_, ?_, fun hD => stateOf_jacobian hj g1.1 g2.1 hx hD, ?_⟩
  · show (vdiv (con (vmul x s)) k).length = m
    rw [length_vdiv, (hj.2 _ hy).1, g2.1, Nat.min_self]
  · show (vdiv (jac (vmul x s)) _).length = js.1.length
    rw [length_vdiv, (hj.2 _ hy).2.1]
    simp [Cons.stateOf, hj.1.1]
  · intro lam hlam
    refine ⟨?_, fun hD => stateOf_hessian hh g1.1 g2.1 hx hlam hD⟩
    show (vdiv (hess (vmul x s) (vdiv lam k)) _).length = hs.1.length
    rw [length_vdiv, (hh.2 _ _ hy (by simp [hlam, g2.1])).1]
    simp [Cons.stateOf, hh.1.1]

theorem GoodObj.facts {n : Nat} {s : List ℝ} {o : Obj} (h : GoodObj n s o D) :
    StructIn o.hessStruct n n ∧ o.inScales = s ∧
    ∀ x : List ℝ, x.length = n → (D (vmul x s) → IsGradientAt n o.objective x (fun j => (o.gradient x).getD j 0))
      ∧ (o.gradient x).length = n
      ∧ (D (vmul x s) → IsHessianAt n o.objective x Upper (assemble o.hessStruct.1 o.hessStruct.2 (o.hessian x)))
      ∧ (o.hessian x).length = o.hessStruct.1.length := by
  obtain ⟨f, g, hh, st, rfl, hu, g1⟩ := h
  exact ⟨hu.1, rfl, fun x hx => stateOf_obj hu g1.1 hx⟩

/-! ## C12 -/

theorem map_fst_applyAll {α : Type} (f : α → α × Option PyErr) (d : List (String × α)) :
    (applyAll f d).1.map Prod.fst = d.map Prod.fst := by
  induction d with
  | nil => rfl
  | cons a d ih =>
    obtain ⟨k, a⟩ := a
    unfold applyAll
    split
    · simp
    · simp [ih]

/-- **C12** (order). After any history the constraint names are exactly those added and not deleted, in the
order of insertion. -/
theorem C12_order (n : Nat) (ops : List Op) (ho : GoodHistory (Prob.init n) ops D) :
    ((Prob.init n).runAll ops).cons.map Prod.fst = insertionOrder n ops := by
  have key : ∀ (p : Prob) (names : List String), Inv n p D → GoodHistory p ops D → p.cons.map Prod.fst = names →
      (p.runAll ops).cons.map Prod.fst = ops.foldl (orderStep n) names := by
    clear ho
    induction ops with
    | nil => intro p names _ _ h; exact h
    | cons o os ih =>
      intro p names hI hg hn
      have hstep : (p.step o).1.cons.map Prod.fst = orderStep n names o := by
        unfold orderStep
        cases o with
        | addCon name c =>
          simp only [Prob.step, Prob.addConstraints]
          by_cases hk : hasKey p.cons name = true
          · rw [if_pos hk]
            have : name ∈ names := by rw [← hn, ← hasKey_iff]; exact hk
            simp [this, hn]
          · rw [if_neg hk]
            have hk' : name ∉ names := by rw [← hn, ← hasKey_iff]; exact hk
            by_cases hq : c.numIn ≠ p.numDec
            · rw [if_pos hq]
              rw [hI.dec] at hq
              simp [hq, hn]
            · rw [if_neg hq]
              rw [hI.dec] at hq
              obtain ⟨s, hgc⟩ := hg.1
              rw [show c.numIn = n by simpa using hq] at hgc
              obtain ⟨a1, a2, a3⟩ := hgc.setInput hI.scales
              have e : c.setInputScales p.scales = ((c.setInputScales p.scales).1, none) := by rw [← a1]
              rw [e]
              simp [hn, hk', show c.numIn = n by simpa using hq]
        | delCon name =>
          simp only [Prob.step, Prob.deleteConstraints]
          have hf : (dropKey p.cons name).map Prod.fst = names.filter (· ≠ name) := by
            rw [← hn, List.filter_map]
            unfold dropKey
            congr 1
            apply List.filter_congr
            intro a _
            simp [bne, Bool.beq_eq_decide_eq]
          split
          · exact hf
          · rename_i hk
            have : dropKey p.cons name = p.cons := by
              unfold dropKey
              rw [List.filter_eq_self]
              intro a ha
              simp only [bne_iff_ne, ne_eq]
              rintro rfl
              exact hk (by rw [hasKey_iff]; exact List.mem_map_of_mem (f := Prod.fst) ha)
            rw [this] at hf
            exact hf
        | addObj name o =>
          simp only [Prob.step, Prob.addObjective]
          split
          · exact hn
          · split <;> exact hn
        | delObj name =>
          simp only [Prob.step, Prob.deleteObjective]
          split <;> exact hn
        | setScales s =>
          simp only [Prob.step, Prob.setScales]
          split
          · exact hn
          · simp only [map_fst_applyAll]; exact hn
        | setConScales name k =>
          simp only [Prob.step, Prob.setConScales]
          split
          · exact hn
          · rw [← hn, List.map_map]
            apply List.map_congr_left
            intro d _
            simp only [Function.comp]
            split <;> rfl
        | queryHessStructure => simp only [Prob.step, (hessianstructure_fields p).1]; exact hn
        | evalHess x lam sg => simp only [Prob.step, (hessian_fields p x lam sg).1]; exact hn
      exact ih (p.step o).1 _ (inv_step hI o hg.1) hg.2 hstep
  exact key (Prob.init n) [] (inv_init n) ho rfl

/-- **C12** (value, length, split). In every reachable problem with at least one constraint, `constraints(x)`
succeeds, has `num_con` entries, is the concatenation of the components' values in order, and
`split_constraints` of it hands every name its own component's values. -/
theorem C12_constraints_and_split {n : Nat} {p : Prob} (hp : Reachable n p D) (hne : p.cons ≠ [])
    (x : List ℝ) (hx : x.length = n) :
    ∃ v, p.constraints x = .ok v ∧ v.length = p.numCon
      ∧ v = (p.cons.map fun c => c.2.constraints x).flatten
      ∧ p.splitConstraints v = p.cons.map (fun c => (c.1, c.2.constraints x)) := by
  have hI := hp.inv
  have hlen : (p.cons.map fun c => c.2.constraints x).map List.length = p.cons.map fun c => c.2.numCon := by
    rw [List.map_map]
    apply List.map_congr_left
    intro c hc
    exact ((hI.cons c hc).facts.2.2 x hx).1
  refine ⟨(p.cons.map fun c => c.2.constraints x).flatten, ?_, ?_, rfl, ?_⟩
  · unfold Prob.constraints
    rw [if_neg (by simpa using hne)]
  · rw [List.length_flatten, hlen]; rfl
  · unfold Prob.splitConstraints
    dsimp only
    have := Np.split_flatten (p.cons.map fun c => c.2.constraints x) (by simpa using hne)
    rw [hlen] at this
    rw [this, List.zip_map']

/-- **C12** (split of any vector, e.g. of multipliers). Any vector of length `num_con` is cut into one part
per name, in order, of exactly the component's length; the parts concatenate to the vector. -/
theorem C12_split_any {n : Nat} {p : Prob} (_hp : Reachable n p D) (hne : p.cons ≠ []) {α : Type} (v : List α)
    (hv : v.length = p.numCon) :
    (p.splitConstraints v).map Prod.fst = p.cons.map Prod.fst
      ∧ (p.splitConstraints v).map (fun q => q.2.length) = p.cons.map (fun c => c.2.numCon)
      ∧ ((p.splitConstraints v).map Prod.snd).flatten = v := by
  obtain ⟨parts, h1, h2, h3⟩ := split_parts (p.cons.map fun (c : String × Cons) => c.2.numCon) v (by simpa using hne) hv
  have hl : (p.cons.map Prod.fst).length = parts.length := by
    have := congrArg List.length h1
    simpa using this.symm
  unfold Prob.splitConstraints
  dsimp only
  rw [h3]
  refine ⟨?_, ?_, ?_⟩
  · exact List.map_fst_zip (by omega)
  · have e : ((p.cons.map Prod.fst).zip parts).map (fun q => q.2.length)
        = (((p.cons.map Prod.fst).zip parts).map Prod.snd).map List.length := by simp
    rw [e, List.map_snd_zip (by omega), h1]
  · rw [List.map_snd_zip (by omega), h2]

/-- **C12** (no constraints). A problem without constraints raises `ValueError` when asked for constraints,
Jacobian or structure. -/
theorem C12_no_constraints (p : Prob) (h : p.cons = []) (x : List ℝ) :
    p.constraints x = .error .valueError ∧ p.jacobian x = .error .valueError
      ∧ p.jacobianstructure = .error .valueError := by
  simp [Prob.constraints, Prob.jacobian, Prob.jacobianstructure, h]

/-! ## C13 -/

/-- **C13**. In every reachable problem with at least one constraint: Jacobian values and structure have the
same length, rows are below `num_con`, columns below `num_dec`, and the matrix they describe is the derivative
of `constraints`, wherever the components' derivatives are right. -/
theorem C13_jacobian {n : Nat} {p : Prob} (hp : Reachable n p D) (hne : p.cons ≠ []) (x : List ℝ)
    (hx : x.length = n) :
    ∃ (F : List ℝ → List ℝ) (rows cols : List Nat) (vals : List ℝ),
      (∀ y, p.constraints y = .ok (F y)) ∧ p.jacobianstructure = .ok (rows, cols) ∧ p.jacobian x = .ok vals
      ∧ rows.length = cols.length ∧ vals.length = rows.length
      ∧ (∀ r ∈ rows, r < p.numCon) ∧ (∀ c ∈ cols, c < p.numDec)
      ∧ (D (vmul x p.scales) → IsJacobianAt n p.numCon F x (assemble rows cols vals)) := by
  have hI := hp.inv
  have hemp : p.cons.isEmpty = false := by simpa using hne
  refine ⟨fun y => (p.cons.map fun c => c.2.constraints y).flatten, (jacLoop 0 p.cons).1.flatten,
    (jacLoop 0 p.cons).2.flatten, (p.cons.map fun c => c.2.jacobian x).flatten, ?_, ?_, ?_, ?_, ?_, ?_, ?_, ?_⟩
  · intro y; simp [Prob.constraints, hemp]
  · simp [Prob.jacobianstructure, hemp]
  · simp [Prob.jacobian, hemp]
  · exact (jacLoop_lengths 0 p.cons x (fun c hc => ⟨(hI.cons c hc).facts.1.1.1, ((hI.cons c hc).facts.2.2 x hx).2.1⟩)).1
  · exact (jacLoop_lengths 0 p.cons x (fun c hc => ⟨(hI.cons c hc).facts.1.1.1, ((hI.cons c hc).facts.2.2 x hx).2.1⟩)).2
  · intro r hr
    have := jacLoop_rows_lt 0 p.cons (fun c hc => (hI.cons c hc).facts.1.1.2.1) r hr
    simpa [Prob.numCon] using this
  · intro c hc
    rw [hI.dec]
    exact jacLoop_cols_lt 0 p.cons n (fun c hc => (hI.cons c hc).facts.1.1.2.2) c hc
  · intro hD r hr j hj
    have := jacLoop_derivative n 0 p.cons x hx (fun c hc =>
      ⟨(hI.cons c hc).facts.1.1, ((hI.cons c hc).facts.2.2 x hx).2.1,
        fun y hy => ((hI.cons c hc).facts.2.2 y hy).1, ((hI.cons c hc).facts.2.2 x hx).2.2.1 hD⟩) r hr j hj
    simpa using this

/-! ## C14 -/

theorem zipWith_sum_dot {α : Type} (cs : List α) (F : α → List ℝ) (parts : List (List ℝ))
    (h : parts.map List.length = cs.map fun c => (F c).length) :
    dot parts.flatten (cs.map F).flatten = (List.zipWith (fun c l => dot l (F c)) cs parts).sum := by
  induction cs generalizing parts with
  | nil => simp at h; simp [h, dot]
  | cons c cs ih =>
    cases parts with
    | nil => simp at h
    | cons q qs =>
      simp only [List.map_cons, List.cons.injEq] at h
      simp only [List.flatten_cons, List.map_cons, List.zipWith_cons_cons, List.sum_cons]
      rw [dot_append _ _ _ _ h.1, ih qs h.2]

theorem zipWith_eq_map_zip {α β γ : Type} (f : α → β → γ) (as : List α) (bs : List β) :
    List.zipWith f as bs = (as.zip bs).map (fun q => f q.1 q.2) := by
  induction as generalizing bs with
  | nil => simp
  | cons a as ih => cases bs <;> simp [ih]

/-- One term of the Lagrangian together with its triplets. -/
structure Piece where
  rows : List Nat
  cols : List Nat
  vals : List ℝ
  fn : List ℝ → ℝ

theorem piece_sum {n : Nat} (ps : List Piece) {x : List ℝ} (hx : x.length = n) {Q : Prop}
    (h : ∀ p ∈ ps, StructIn (p.rows, p.cols) n n ∧ p.vals.length = p.rows.length
      ∧ (Q → IsHessianAt n p.fn x Upper (assemble p.rows p.cols p.vals))) :
    let rows := (ps.map Piece.rows).flatten
    let cols := (ps.map Piece.cols).flatten
    let vals := (ps.map Piece.vals).flatten
    let mask := List.zipWith (fun r c => decide (r ≤ c)) rows cols
    rows.length = cols.length ∧ mask.length = vals.length
      ∧ (keep mask rows).length = (keep mask cols).length ∧ (keep mask vals).length = (keep mask rows).length
      ∧ (∀ q ∈ (keep mask rows).zip (keep mask cols), q.1 ≤ q.2 ∧ q.2 < n)
      ∧ (Q → IsHessianAt n (fun y => (ps.map fun p => p.fn y).sum) x Upper
          (assemble (keep mask rows) (keep mask cols) (keep mask vals)))
      ∧ ∀ i j, j < i → assemble (keep mask rows) (keep mask cols) (keep mask vals) i j = 0 := by
  intro rows cols vals mask
  have hrc : rows.length = cols.length := length_flatten_congr ps _ _ (fun p hp => (h p hp).1.1)
  have hrv : rows.length = vals.length := length_flatten_congr ps _ _ (fun p hp => (h p hp).2.1.symm)
  have hmask : mask.length = vals.length := by
    show (List.zipWith _ rows cols).length = _
    simp; omega
  have hlen : ∀ {α β : Type} (m : List Bool) (a : List α) (b : List β), a.length = b.length →
      (keep m a).length = (keep m b).length := by
    intro α β m
    induction m with
    | nil => intro a b _; simp [keep]
    | cons c m ih =>
      intro a b hab
      cases a with
      | nil =>
        cases b with
        | nil => simp [keep]
        | cons => simp at hab
      | cons a as =>
        cases b with
        | nil => simp at hab
        | cons b bs =>
          have := ih as bs (by simpa using hab)
          rw [keep_cons, keep_cons]
          cases c <;> simp [this]
  have hasm := fun i j => assemble_keep (fun r c => decide (r ≤ c)) rows cols vals hrc hrv i j
  refine ⟨hrc, hmask, hlen _ _ _ hrc, hlen _ _ _ hrv.symm, ?_, ?_, ?_⟩
  · have hc : ∀ c ∈ cols, c < n := by
      intro c hc
      obtain ⟨l, hl, hcl⟩ := List.mem_flatten.mp hc
      obtain ⟨p, hp, rfl⟩ := List.mem_map.mp hl
      exact (h p hp).1.2.2 c hcl
    have key : ∀ (rows cols : List Nat), rows.length = cols.length → (∀ c ∈ cols, c < n) →
        ∀ q ∈ (keep (List.zipWith (fun r c => decide (r ≤ c)) rows cols) rows).zip
          (keep (List.zipWith (fun r c => decide (r ≤ c)) rows cols) cols), q.1 ≤ q.2 ∧ q.2 < n := by
      intro rows
      induction rows with
      | nil => intro cols _ _ q hq; simp [keep] at hq
      | cons r rs ih =>
        intro cols hl hc q hq
        cases cols with
        | nil => simp at hl
        | cons c cs =>
          have ih := ih cs (by simpa using hl) (fun c hc' => hc c (by simp [hc']))
          simp only [List.zipWith_cons_cons, keep_cons] at hq
          by_cases hle : r ≤ c
          · simp only [hle, decide_true, if_true, List.zip_cons_cons, List.mem_cons] at hq
            rcases hq with rfl | hq
            · exact ⟨hle, hc _ (by simp)⟩
            · exact ih q hq
          · simp only [hle, decide_false, Bool.false_eq_true, if_false] at hq
            exact ih q hq
    exact key rows cols hrc hc
  · intro hQ
    refine (IsHessianAt.list_sum (H := fun p => assemble p.rows p.cols p.vals) ps
      (fun p hp => (h p hp).2.2 hQ)).congr hx (fun _ _ => rfl) ?_
    intro i j _ _ hij
    show assemble (keep mask rows) (keep mask cols) (keep mask vals) i j = _
    rw [hasm i j, if_pos (by simpa [Upper] using hij)]
    exact assemble_flatten ps Piece.rows Piece.cols Piece.vals
      (fun p hp => ⟨(h p hp).1.1, (h p hp).2.1.symm⟩) i j
  · intro i j hij
    rw [hasm i j, if_neg (by simpa using hij)]

/-- **C14**. Take any reachable problem and query `hessianstructure()` (nothing changes afterwards). For every
point, multiplier vector and objective factor, `hessian` succeeds, its values align with the structure, only
`row ≤ col` entries occur, and the matrix is the upper triangle of the Hessian of
`σ · objective + λ · constraints` (wherever the components' derivatives are right); evaluation leaves the problem (and so the structure) as it is. -/
theorem C14_hessian {n : Nat} {p : Prob} (hp : Reachable n p D) (hne : p.cons ≠ [] ∨ p.objs ≠ [])
    (x lam : List ℝ) (sigma : ℝ) (hx : x.length = n) (hlam : lam.length = p.numCon) :
    ∃ (F : List ℝ → List ℝ) (f : List ℝ → ℝ) (rows cols : List Nat) (vals : List ℝ),
      (p.cons ≠ [] → ∀ y, p.constraints y = .ok (F y)) ∧ (p.cons = [] → ∀ y, F y = [])
      ∧ (p.objs ≠ [] → ∀ y, p.objective y = .ok (f y)) ∧ (p.objs = [] → ∀ y, f y = 0)
      ∧ p.hessianstructure.2 = .ok (rows, cols)
      ∧ p.hessianstructure.1.hessian x lam sigma = (p.hessianstructure.1, .ok vals)
      ∧ rows.length = cols.length ∧ vals.length = rows.length
      ∧ (∀ q ∈ rows.zip cols, q.1 ≤ q.2 ∧ q.2 < p.numDec)
      ∧ (D (vmul x p.scales) → IsHessianAt n (fun y => f y * sigma + dot lam (F y)) x Upper (assemble rows cols vals))
      ∧ ∀ i j, j < i → assemble rows cols vals i j = 0 := by
  have hI := hp.inv
  -- the multipliers, part by part
  obtain ⟨parts, hparts, hflat, hsplit⟩ : ∃ parts : List (List ℝ),
      parts.map List.length = p.cons.map (fun (c : String × Cons) => c.2.numCon) ∧ parts.flatten = lam
      ∧ ∀ F : Cons → List ℝ → List ℝ, (p.cons.map fun c => F c.2 (lookupD (p.splitConstraints lam) c.1))
        = (p.cons.zip parts).map (fun q => F q.1.2 q.2) := by
    by_cases hc : p.cons = []
    · refine ⟨[], by simp [hc], ?_, by simp [hc]⟩
      have : lam.length = 0 := by rw [hlam, Prob.numCon, hc]; rfl
      simpa using (List.length_eq_zero_iff.mp this).symm
    · obtain ⟨parts, h1, h2, h3⟩ := split_parts (p.cons.map fun (c : String × Cons) => c.2.numCon) lam
        (by simpa using hc) hlam
      refine ⟨parts, h1, h2, fun F => ?_⟩
      have hl : p.cons.length = parts.length := by simpa using (congrArg List.length h1).symm
      have e : p.splitConstraints lam = (p.cons.map Prod.fst).zip parts := by
        unfold Prob.splitConstraints
        dsimp only
        rw [h3]
      rw [e, map_lookupD_zip p.cons parts hl hI.consNodup F]
      exact zipWith_eq_map_zip _ _ _
  have hl : p.cons.length = parts.length := by simpa using (congrArg List.length hparts).symm
  have hzip : ∀ {β : Type} (G : String × Cons → β), p.cons.map G = (p.cons.zip parts).map (fun q => G q.1) := by
    intro β G
    conv_lhs => rw [← List.map_fst_zip (l₁ := p.cons) (l₂ := parts) (by omega)]
    rw [List.map_map]
    rfl
  have hmem : ∀ q ∈ p.cons.zip parts, GoodCons n p.scales q.1.2 D ∧ q.2.length = q.1.2.numCon := by
    intro q hq
    refine ⟨hI.cons _ (List.of_mem_zip hq).1, ?_⟩
    have e : (p.cons.zip parts).map (fun q => q.2.length) = (p.cons.zip parts).map (fun q => q.1.2.numCon) := by
      rw [← hzip (fun c => c.2.numCon), ← hparts]
      conv_rhs => rw [← List.map_snd_zip (l₁ := p.cons) (l₂ := parts) (by omega)]
      rw [List.map_map]
      rfl
    exact List.map_inj_left.mp e q hq
  let ps : List Piece :=
    (p.cons.zip parts).map (fun q => (⟨q.1.2.hessStruct.1, q.1.2.hessStruct.2, q.1.2.hessian x q.2,
      fun y => dot q.2 (q.1.2.constraints y)⟩ : Piece))
    ++ p.objs.map (fun o => (⟨o.2.hessStruct.1, o.2.hessStruct.2, (o.2.hessian x).map (· * sigma),
      fun y => o.2.objective y * sigma⟩ : Piece))
  have hps : ∀ q ∈ ps, StructIn (q.rows, q.cols) n n ∧ q.vals.length = q.rows.length
      ∧ (D (vmul x p.scales) → IsHessianAt n q.fn x Upper (assemble q.rows q.cols q.vals)) := by
    intro q hq
    rcases List.mem_append.mp hq with hq | hq
    · obtain ⟨c, hc, rfl⟩ := List.mem_map.mp hq
      obtain ⟨g1, g2⟩ := hmem c hc
      obtain ⟨f1, _, f3⟩ := g1.facts
      obtain ⟨_, _, _, f4⟩ := f3 x hx
      obtain ⟨f5, f6⟩ := f4 c.2 g2
      exact ⟨f1.2, f5, f6⟩
    · obtain ⟨o, ho, rfl⟩ := List.mem_map.mp hq
      obtain ⟨f1, _, f3⟩ := (hI.objs o ho).facts
      obtain ⟨_, _, f5, f6⟩ := f3 x hx
      refine ⟨f1, by simpa using f6, fun hD => ?_⟩
      refine (IsHessianAt.mul_const (f5 hD) sigma).congr hx (fun _ _ => rfl) ?_
      intro i j _ _ _
      exact assemble_map_mul _ _ _ _ _ _
  have erows : (p.hessPieces.map Prod.fst).flatten = (ps.map Piece.rows).flatten := by
    simp only [Prob.hessPieces, ps, List.map_append, List.map_map]
    rw [hzip]
    rfl
  have ecols : (p.hessPieces.map Prod.snd).flatten = (ps.map Piece.cols).flatten := by
    simp only [Prob.hessPieces, ps, List.map_append, List.map_map]
    rw [hzip]
    rfl
  have evals : ((p.cons.map fun c => c.2.hessian x (lookupD (p.splitConstraints lam) c.1))
      ++ (p.objs.map fun o => (o.2.hessian x).map (· * sigma))).flatten = (ps.map Piece.vals).flatten := by
    rw [hsplit (fun c l => c.hessian x l)]
    simp only [ps, List.map_append, List.map_map]
    rfl
  have hpne : p.hessPieces.isEmpty = false := by
    rcases hne with h | h
    · cases hc : p.cons with
      | nil => exact absurd hc h
      | cons => simp [Prob.hessPieces, hc]
    · cases hc : p.objs with
      | nil => exact absurd hc h
      | cons => simp [Prob.hessPieces, hc]
  have hstr : p.hessianstructure
      = ({ p with idxTriu := some (List.zipWith (fun r c => decide (r ≤ c)) (ps.map Piece.rows).flatten
            (ps.map Piece.cols).flatten) },
         .ok (keep (List.zipWith (fun r c => decide (r ≤ c)) (ps.map Piece.rows).flatten
            (ps.map Piece.cols).flatten) (ps.map Piece.rows).flatten,
           keep (List.zipWith (fun r c => decide (r ≤ c)) (ps.map Piece.rows).flatten
            (ps.map Piece.cols).flatten) (ps.map Piece.cols).flatten)) := by
    unfold Prob.hessianstructure
    rw [hpne]
    simp only [Bool.false_eq_true, if_false, erows, ecols]
  obtain ⟨k1, k2, k3, k4, k5, k6, k7⟩ := piece_sum ps hx hps
  refine ⟨fun y => (p.cons.map fun c => c.2.constraints y).flatten, fun y => (p.objs.map fun o => o.2.objective y).sum,
    _, _, keep (List.zipWith (fun r c => decide (r ≤ c)) (ps.map Piece.rows).flatten
            (ps.map Piece.cols).flatten) (ps.map Piece.vals).flatten, ?_, ?_, ?_, ?_, by rw [hstr], ?_, k3, k4, ?_, ?_, k7⟩
  · intro h y; simp [Prob.constraints, h]
  · intro h y; simp [h]
  · intro h y; simp [Prob.objective, h]
  · intro h y; simp [h]
  · rw [hstr]
    unfold Prob.hessian
    dsimp only
    have e0 : (({ p with idxTriu := some (List.zipWith (fun r c => decide (r ≤ c)) (ps.map Piece.rows).flatten
            (ps.map Piece.cols).flatten) } : Prob)).splitConstraints lam = p.splitConstraints lam := rfl
    rw [e0, evals, if_neg, if_neg]
    · rw [not_not]; exact k2
    · rcases hne with h | h <;> simp [h]
  · rw [hI.dec]; exact k5
  · intro hD
    refine (k6 hD).congr hx ?_ (fun _ _ _ _ _ => rfl)
    intro y hy
    have hd : dot lam ((p.cons.map fun c => c.2.constraints y).flatten)
        = ((p.cons.zip parts).map fun q => dot q.2 (q.1.2.constraints y)).sum := by
      rw [← hflat, zipWith_sum_dot p.cons (fun c => c.2.constraints y) parts ?_, zipWith_eq_map_zip]
      rw [hparts]
      apply List.map_congr_left
      intro c hc
      exact ((hI.cons c hc).facts.2.2 y hy).1.symm
    have ho : (p.objs.map fun o => o.2.objective y).sum * sigma = (p.objs.map fun o => o.2.objective y * sigma).sum :=
      (List.sum_map_mul_right _ _ _).symm
    show (p.objs.map fun o => o.2.objective y).sum * sigma + dot lam _ = (ps.map fun p => p.fn y).sum
    rw [hd, ho]
    simp only [ps, List.map_append, List.map_map, List.sum_append, Function.comp_def]
    exact add_comm _ _

/-- The zero objective on two variables, with a declared (symmetric) off-diagonal structure. -/
noncomputable def exZero : Obj :=
  Obj.stateOf 2 (fun _ => 0) (fun _ => [0, 0]) (fun _ => [0, 0]) ([0, 1], [1, 0]) [1, 1]

/-- The objective `x₀·x₁` on two variables; the upper-triangle entry is listed second. -/
noncomputable def exProd : Obj :=
  Obj.stateOf 2 (fun y => y.getD 0 0 * y.getD 1 0) (fun y => [y.getD 1 0, y.getD 0 0]) (fun _ => [0, 1])
    ([1, 0], [0, 1]) [1, 1]

theorem exZero_good : GoodObj 2 [1, 1] exZero := by
  refine ⟨_, _, _, _, rfl, ⟨by simp [StructIn], ?_⟩, by simp⟩
  intro y hy
  refine ⟨rfl, ?_, rfl, fun _ => ?_⟩
  · intro _ j hj
    have hj' : j = 0 ∨ j = 1 := by omega
    rcases hj' with rfl | rfl <;> simpa using hasDerivAt_const _ _
  · refine (IsHessianAt.zero (n := 2) (x := y) (P := Upper) 0).congr hy (fun _ _ => rfl) ?_
    intro i j _ _ _
    simp [assemble]

theorem exProd_good : GoodObj 2 [1, 1] exProd := by
  refine ⟨_, _, _, _, rfl, ⟨by simp [StructIn], ?_⟩, by simp⟩
  have hgrad : ∀ y : List ℝ, y.length = 2 → IsGradientAt 2 (fun y => y.getD 0 0 * y.getD 1 0) y
      (fun j => [y.getD 1 0, y.getD 0 0].getD j 0) := by
    intro y hy j hj
    obtain ⟨a, b, rfl⟩ : ∃ a b, y = [a, b] := by
      match y, hy with
      | [a, b], _ => exact ⟨a, b, rfl⟩
    have hj' : j = 0 ∨ j = 1 := by omega
    rcases hj' with rfl | rfl
    · simpa using (hasDerivAt_id a).mul_const b
    · simpa using (hasDerivAt_id b).const_mul a
  intro y hy
  refine ⟨rfl, fun _ => hgrad y hy, rfl, fun _ => IsHessianAt.of_global hy ⟨_, hgrad, ?_⟩⟩
  obtain ⟨a, b, rfl⟩ : ∃ a b, y = [a, b] := by
    match y, hy with
    | [a, b], _ => exact ⟨a, b, rfl⟩
  intro i j hi hj hij
  have hi' : i = 0 ∨ i = 1 := by omega
  have hj' : j = 0 ∨ j = 1 := by omega
  rcases hi' with rfl | rfl <;> rcases hj' with rfl | rfl <;> simp [assemble, Upper] at hij ⊢
  · exact hasDerivAt_const _ _
  · exact hasDerivAt_id _
  · exact hasDerivAt_const _ _

theorem exZero_set : exZero.setInputScales [1, 1] = (exZero, none) :=
  obj_set_eq (by simp [StructIn]) rfl

theorem exProd_set : exProd.setInputScales [1, 1] = (exProd, none) :=
  obj_set_eq (by simp [StructIn]) rfl

/-- **C14** (finding: stale mask). The mask is remembered from the last `hessianstructure()` call. Replacing
an objective afterwards makes `hessian` return the wrong values without any error: here the value `0` instead
of the second derivative `1` that a fresh query gives. -/
theorem C14_stale_mask_is_silent :
    ∃ ops, GoodHistory (Prob.init 2) ops ∧
      (((Prob.init 2).runAll ops).hessian [1, 1] [] 1).2 = .ok [0]
      ∧ ((((Prob.init 2).runAll ops).hessianstructure.1).hessian [1, 1] [] 1).2 = .ok [1] := by
  refine ⟨[.addObj "f" exZero, .queryHessStructure, .delObj "f", .addObj "g" exProd], ?_, ?_, ?_⟩
  · refine ⟨⟨_, exZero_good⟩, trivial, trivial, ⟨[1, 1], ?_⟩, trivial⟩
    have : (Prob.init 2).numDec = 2 := rfl
    simpa [Prob.step, Prob.addObjective, Prob.init, hasKey, exZero_set, Prob.hessianstructure, Prob.hessPieces,
      Prob.deleteObjective] using exProd_good
  · simp [Prob.runAll, Prob.step, Prob.addObjective, Prob.init, hasKey, exZero_set, exProd_set,
      Prob.hessianstructure, Prob.hessPieces, Prob.deleteObjective, dropKey, Prob.hessian]
    simp [exZero, exProd, Obj.stateOf, Obj.hessian, keep, vdiv]
  · simp [Prob.runAll, Prob.step, Prob.addObjective, Prob.init, hasKey, exZero_set, exProd_set,
      Prob.hessianstructure, Prob.hessPieces, Prob.deleteObjective, dropKey, Prob.hessian]
    simp [exProd, Obj.stateOf, Obj.hessian, keep, vdiv]

/-- **C14** (finding: stale mask, loud case). Adding a component after the structure was queried makes
`hessian` raise `IndexError`. -/
theorem C14_stale_mask_raises :
    ∃ ops, GoodHistory (Prob.init 2) ops ∧
      (((Prob.init 2).runAll ops).hessian [1, 1] [] 1).2 = .error .indexError := by
  refine ⟨[.addObj "f" exZero, .queryHessStructure, .addObj "g" exProd], ?_, ?_⟩
  · refine ⟨⟨_, exZero_good⟩, trivial, ⟨[1, 1], ?_⟩, trivial⟩
    simpa [Prob.step, Prob.addObjective, Prob.init, hasKey, exZero_set, Prob.hessianstructure, Prob.hessPieces,
      Prob.deleteObjective] using exProd_good
  · simp [Prob.runAll, Prob.step, Prob.addObjective, Prob.init, hasKey, exZero_set, exProd_set,
      Prob.hessianstructure, Prob.hessPieces, Prob.hessian]
    simp [exZero, exProd, Obj.stateOf, Obj.hessian, vdiv]

/-! ## C15 -/

theorem getD_sumRows (n : Nat) (rows : List (List ℝ)) (h : ∀ r ∈ rows, r.length = n) :
    (sumRows n rows).length = n ∧ ∀ j, j < n → (sumRows n rows).getD j 0 = (rows.map fun r => r.getD j 0).sum := by
  unfold sumRows
  have key : ∀ (acc : List ℝ), acc.length = n →
      (rows.foldl (fun acc r => List.zipWith (· + ·) acc r) acc).length = n
      ∧ ∀ j, j < n → (rows.foldl (fun acc r => List.zipWith (· + ·) acc r) acc).getD j 0
          = acc.getD j 0 + (rows.map fun r => r.getD j 0).sum := by
    induction rows with
    | nil => intro acc ha; exact ⟨ha, fun j _ => by simp⟩
    | cons r rs ih =>
      intro acc ha
      have hr := h r (by simp)
      obtain ⟨h1, h2⟩ := ih (fun r hr => h r (by simp [hr])) (List.zipWith (· + ·) acc r) (by simp [ha, hr])
      refine ⟨h1, fun j hj => ?_⟩
      rw [List.foldl_cons, h2 j hj]
      have e : (List.zipWith (· + ·) acc r).getD j 0 = acc.getD j 0 + r.getD j 0 := by
        have a1 : j < acc.length := by omega
        have a2 : j < r.length := by omega
        simp [a1, a2]
      rw [e, List.map_cons, List.sum_cons, add_assoc]
  obtain ⟨h1, h2⟩ := key (List.replicate n 0) (by simp)
  refine ⟨h1, fun j hj => ?_⟩
  rw [h2 j hj]
  simp [hj]

theorem hasDerivAt_list_sum {ι : Type} (ps : List ι) (F : ι → ℝ → ℝ) (D : ι → ℝ) (t : ℝ)
    (h : ∀ p ∈ ps, HasDerivAt (F p) (D p) t) :
    HasDerivAt (fun s => (ps.map fun p => F p s).sum) (ps.map D).sum t := by
  induction ps with
  | nil => simpa using hasDerivAt_const t (0 : ℝ)
  | cons p ps ih =>
    simp only [List.map_cons, List.sum_cons]
    exact (h p (by simp)).add (ih (fun q hq => h q (by simp [hq])))

/-- **C15**. In every reachable problem with at least one objective, `objective(x)` is the sum of the values
of the objectives currently present, `gradient(x)` has `num_dec` entries, entry `j` is the sum of their
gradients' entries, and it is the gradient of `objective` wherever the components' derivatives are right. -/
theorem C15_objective_and_gradient {n : Nat} {p : Prob} (hp : Reachable n p D) (hne : p.objs ≠ []) (x : List ℝ)
    (hx : x.length = n) :
    ∃ (f : List ℝ → ℝ) (g : List ℝ), (∀ y, p.objective y = .ok (f y))
      ∧ (∀ y, f y = (p.objs.map fun o => o.2.objective y).sum)
      ∧ p.gradient x = .ok g ∧ g.length = n
      ∧ (∀ j, j < n → g.getD j 0 = (p.objs.map fun o => (o.2.gradient x).getD j 0).sum)
      ∧ (D (vmul x p.scales) → IsGradientAt n f x (fun j => g.getD j 0)) := by
  have hI := hp.inv
  have hemp : p.objs.isEmpty = false := by simpa using hne
  obtain ⟨h1, h2⟩ := getD_sumRows n (p.objs.map fun o => o.2.gradient x) (by
    intro r hr
    obtain ⟨o, ho, rfl⟩ := List.mem_map.mp hr
    exact ((hI.objs o ho).facts.2.2 x hx).2.1)
  refine ⟨fun y => (p.objs.map fun o => o.2.objective y).sum, sumRows n (p.objs.map fun o => o.2.gradient x),
    ?_, fun _ => rfl, ?_, h1, ?_, ?_⟩
  · intro y; simp [Prob.objective, hemp]
  · simp [Prob.gradient, hemp, hI.dec]
  · intro j hj
    rw [h2 j hj, List.map_map]
    rfl
  · intro hD j hj
    have e := h2 j hj
    rw [List.map_map] at e
    beta_reduce
    rw [e]
    exact hasDerivAt_list_sum p.objs _ _ _ (fun o ho => ((hI.objs o ho).facts.2.2 x hx).1 hD j hj)

/-- **C15** (order). Problems whose objectives are a permutation of each other have the same objective value
and gradient. -/
theorem C15_order_independent {n : Nat} {p q : Prob} (hp : Reachable n p D) (hq : Reachable n q D)
    (hperm : p.objs.Perm q.objs) (x : List ℝ) (hx : x.length = n) :
    p.objective x = q.objective x ∧ p.gradient x = q.gradient x := by
  by_cases hne : p.objs = []
  · have hne' : q.objs = [] := by rw [hne] at hperm; exact hperm.symm.eq_nil
    simp [Prob.objective, Prob.gradient, hne, hne']
  · have hne' : q.objs ≠ [] := by
      intro h; rw [h] at hperm; exact hne hperm.eq_nil
    obtain ⟨f, g, a1, a2, a3, a4, a5, _⟩ := C15_objective_and_gradient hp hne x hx
    obtain ⟨f', g', b1, b2, b3, b4, b5, _⟩ := C15_objective_and_gradient hq hne' x hx
    refine ⟨?_, ?_⟩
    · rw [a1, b1, a2, b2, (hperm.map _).sum_eq]
    · rw [a3, b3]
      congr 1
      apply List.ext_getElem (by omega)
      intro j h1 h2
      have e1 := a5 j (by omega)
      have e2 := b5 j (by omega)
      rw [(hperm.map _).sum_eq] at e1
      rw [← e2] at e1
      simpa [h1, h2] using e1

/-- **C15** (no objectives). Without objectives, objective and gradient raise `ValueError`. -/
theorem C15_no_objective (p : Prob) (h : p.objs = []) (x : List ℝ) :
    p.objective x = .error .valueError ∧ p.gradient x = .error .valueError := by
  simp [Prob.objective, Prob.gradient, h]

/-! ## C16 -/

/-- **C16** (duplicate constraint name). -/
theorem C16_duplicate_constraint (p : Prob) (name : String) (c : Cons) (h : name ∈ p.cons.map Prod.fst) :
    p.addConstraints name c = (p, some .valueError) := by
  rw [← hasKey_iff] at h
  simp [Prob.addConstraints, h]

/-- **C16** (wrong number of inputs). -/
theorem C16_wrong_num_in (p : Prob) (name : String) (c : Cons) (h : c.numIn ≠ p.numDec) :
    p.addConstraints name c = (p, some .valueError) := by
  unfold Prob.addConstraints
  rw [if_pos h]
  split <;> rfl

/-- **C16** (duplicate objective name). -/
theorem C16_duplicate_objective (p : Prob) (name : String) (o : Obj) (h : name ∈ p.objs.map Prod.fst) :
    p.addObjective name o = (p, some .nameError) := by
  rw [← hasKey_iff] at h
  simp [Prob.addObjective, h]

/-- **C16** (deleting unknown names). -/
theorem C16_delete_unknown (p : Prob) (name : String) :
    (name ∉ p.cons.map Prod.fst → p.deleteConstraints name = (p, some .keyError))
      ∧ (name ∉ p.objs.map Prod.fst → p.deleteObjective name = (p, some .keyError)) := by
  constructor <;> intro h <;> rw [← hasKey_iff] at h
  · simp [Prob.deleteConstraints, h]
  · simp [Prob.deleteObjective, h]

/-- **C16** (deleting a known name removes that one only). -/
theorem C16_delete_known (p : Prob) (name : String) (h : name ∈ p.cons.map Prod.fst) :
    (p.deleteConstraints name).2 = none
      ∧ ∀ d, d ∈ (p.deleteConstraints name).1.cons ↔ d ∈ p.cons ∧ d.1 ≠ name := by
  rw [← hasKey_iff] at h
  simp [Prob.deleteConstraints, h, dropKey]

/-- **C16** (any call that raises an exception of the additions leaves the problem as it was). -/
theorem C16_failed_add_unchanged (p : Prob) (name : String) :
    (∀ c e, (p.addConstraints name c).2 = some e → (p.addConstraints name c).1 = p)
      ∧ (∀ o e, (p.addObjective name o).2 = some e → (p.addObjective name o).1 = p) := by
  constructor
  · intro c e h
    unfold Prob.addConstraints at h ⊢
    split
    · rfl
    · rename_i hk
      rw [if_neg hk] at h
      split
      · rfl
      · rename_i hq
        rw [if_neg hq] at h
        split
        · rfl
        · rename_i hs
          rw [hs] at h
          simp at h
  · intro o e h
    unfold Prob.addObjective at h ⊢
    split
    · rfl
    · rename_i hk
      rw [if_neg hk] at h
      split
      · rfl
      · rename_i hs
        rw [hs] at h
        simp at h

/-- **C16** (scales). In every reachable problem every component uses the problem's current scales and has
the problem's number of inputs. -/
theorem C16_components_use_problem_scales {n : Nat} {p : Prob} (hp : Reachable n p D) :
    (∀ c ∈ p.cons, c.2.inScales = p.scales ∧ c.2.numIn = p.numDec)
      ∧ (∀ o ∈ p.objs, o.2.inScales = p.scales) := by
  have hI := hp.inv
  refine ⟨fun c hc => ⟨(hI.cons c hc).facts.2.1, ?_⟩, fun o ho => (hI.objs o ho).facts.2.1⟩
  rw [hI.dec]
  exact (hI.cons c hc).numIn

/-- **C16** (accepted additions). A correct component under a new name with the right number of inputs is
accepted and appended. -/
theorem C16_accepted {n : Nat} {p : Prob} (hp : Reachable n p D) (name : String) (c : Cons) {s : List ℝ}
    (hc : GoodCons n s c D) (hn : name ∉ p.cons.map Prod.fst) :
    ∃ c', GoodCons n p.scales c' D ∧ c'.numCon = c.numCon
      ∧ p.addConstraints name c = ({ p with cons := p.cons ++ [(name, c')] }, none) := by
  have hI := hp.inv
  obtain ⟨a1, a2, a3⟩ := hc.setInput hI.scales
  refine ⟨_, a2, a3, ?_⟩
  have e : c.setInputScales p.scales = ((c.setInputScales p.scales).1, none) := by rw [← a1]
  rw [← hasKey_iff] at hn
  unfold Prob.addConstraints
  rw [if_neg hn, if_neg (by rw [hc.numIn, hI.dec]; simp), e]

/-! ## The hypotheses can be met -/

/-- A history with two objectives, a rescaling and a Hessian query is good, so `Reachable` has non-trivial
members with both kinds of components. -/
theorem exReachable : ∃ p : Prob, Reachable 2 p ∧ p.cons ≠ [] ∧ p.objs ≠ [] := by
  have hu : UserHess 2 2 exCon exHess (declared none 2 2) Upper := by
    refine ⟨exUserHess.1, fun y lam hy hl => ⟨(exUserHess.2 y lam hy hl).1, fun _ => ?_⟩⟩
    obtain ⟨g, h1, h2⟩ := (exUserHess.2 y lam hy hl).2 trivial
    exact ⟨g, h1, fun i j hi hj _ => h2 i j hi hj trivial⟩
  have hmk := make_eq (con := exCon) (jac := exJac) (js := none) (hs := none) (hess := exHess) exUserJac.1 hu.1
  have hg := goodCons_of_make hmk exUserJac hu [] (by simp)
  refine ⟨_, ⟨[.addCon "c" _, .addObj "f" exProd], ⟨⟨_, hg⟩, ⟨[1, 1], ?_⟩, trivial⟩, rfl⟩, ?_, ?_⟩
  · have hI := inv_step (inv_init 2) (.addCon "c" _) ⟨_, hg⟩
    rw [hI.dec]
    exact exProd_good
  · have hr : Reachable 2 (Prob.init 2) := ⟨[], trivial, rfl⟩
    obtain ⟨c', _, _, e⟩ := C16_accepted hr "c" _ hg (by simp [Prob.init])
    have e1 : ((Prob.init 2).step (.addCon "c" (Cons.runAll _ []))).1 = _ := congrArg Prod.fst e
    simp only [Prob.runAll, List.foldl_cons, List.foldl_nil]
    rw [e1]
    simp only [Prob.step, Prob.addObjective]
    split
    · simp
    · split <;> simp
  · have hr : Reachable 2 (Prob.init 2) := ⟨[], trivial, rfl⟩
    obtain ⟨c', _, _, e⟩ := C16_accepted hr "c" _ hg (by simp [Prob.init])
    have e1 : ((Prob.init 2).step (.addCon "c" (Cons.runAll _ []))).1 = _ := congrArg Prod.fst e
    simp only [Prob.runAll, List.foldl_cons, List.foldl_nil]
    rw [e1]
    have e2 : exProd.setInputScales (Prob.init 2).scales = (exProd, none) := exProd_set
    simp only [Prob.step, Prob.addObjective]
    rw [if_neg (by simp [hasKey, Prob.init]), e2]
    simp

end Lumos.NLP
