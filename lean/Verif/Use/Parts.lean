import Verif.Use.Spec
/-!
# C97: what single methods do to the components
-/

namespace Lumos.Use

open Lumos DecVar DecVar.Layout NLP Bounds Ocp OCP

variable {A : List ℝ → Prop} {n : Nat}

/-- The number of entries of the Hessian structure. -/
def nnz (p : Prob) : Nat := ((p.hessPieces.map Prod.fst).flatten).length

/-- The remembered mask, if there is one, fits the components. -/
def MaskOk (p : Prob) : Prop := ∀ m, p.idxTriu = some m → m.length = nnz p

/-! ## add and delete -/

theorem addCon_eq {p : Prob} (hp : Reachable n p A) (name : String) {c : Cons} {s : List ℝ} (hc : GoodCons c.numIn s c A) :
    (p.addConstraints name c = (p, some .valueError) ∧ (name ∈ (consSig p).map Prod.fst ∨ c.numIn ≠ n)) ∨
    (name ∉ (consSig p).map Prod.fst ∧ c.numIn = n ∧ ∃ q, p.addConstraints name c = (q, none) ∧ Reachable n q A
      ∧ consSig q = consSig p ++ [(name, c.numCon, c.con)] ∧ objsSig q = objsSig p ∧ q.scales = p.scales) := by
  by_cases h1 : name ∈ (consSig p).map Prod.fst
  · refine Or.inl ⟨?_, Or.inl h1⟩
    rw [← names_of_sig, ← hasKey_iff] at h1
    unfold Prob.addConstraints
    rw [if_pos h1]
  · by_cases h2 : c.numIn = n
    · subst h2
      obtain ⟨q, e, r⟩ := addCon_ok hp hc h1
      refine Or.inr ⟨h1, rfl, q, ?_, r⟩
      unfold orRaise at e
      split at e
      · rename_i hn
        simp only [Except.ok.injEq] at e
        exact Prod.ext e hn
      · cases e
    · refine Or.inl ⟨?_, Or.inr h2⟩
      rw [← names_of_sig, ← hasKey_iff] at h1
      unfold Prob.addConstraints
      rw [if_neg h1, if_pos (by rw [hp.inv.dec]; exact h2)]

theorem addObj_eq {p : Prob} (hp : Reachable n p A) (name : String) {o : Obj} {s : List ℝ} (ho : GoodObj n s o A) :
    (p.addObjective name o = (p, some .nameError) ∧ name ∈ (objsSig p).map Prod.fst) ∨
    (name ∉ (objsSig p).map Prod.fst ∧ ∃ q, p.addObjective name o = (q, none) ∧ Reachable n q A
      ∧ consSig q = consSig p ∧ objsSig q = objsSig p ++ [(name, o.obj)] ∧ q.scales = p.scales) := by
  by_cases h1 : name ∈ (objsSig p).map Prod.fst
  · refine Or.inl ⟨?_, h1⟩
    rw [← objNames_of_sig, ← hasKey_iff] at h1
    unfold Prob.addObjective
    rw [if_pos h1]
  · obtain ⟨q, e, r⟩ := addObj_ok hp ho h1
    refine Or.inr ⟨h1, q, ?_, r⟩
    unfold orRaise at e
    split at e
    · rename_i hn
      simp only [Except.ok.injEq] at e
      exact Prod.ext e hn
    · cases e

theorem delCon_eq {p : Prob} (hp : Reachable n p A) (name : String) :
    (p.deleteConstraints name = (p, some .keyError) ∧ name ∉ (consSig p).map Prod.fst) ∨
    (name ∈ (consSig p).map Prod.fst ∧ ∃ q, p.deleteConstraints name = (q, none) ∧ Reachable n q A
      ∧ consSig q = (consSig p).filter (fun c => c.1 != name) ∧ objsSig q = objsSig p ∧ q.scales = p.scales) := by
  by_cases h1 : name ∈ (consSig p).map Prod.fst
  · obtain ⟨q, e, r⟩ := delCon_ok hp h1
    refine Or.inr ⟨h1, q, ?_, r⟩
    unfold orRaise at e
    split at e
    · rename_i hn
      simp only [Except.ok.injEq] at e
      exact Prod.ext e hn
    · cases e
  · refine Or.inl ⟨?_, h1⟩
    rw [← names_of_sig, ← hasKey_iff] at h1
    unfold Prob.deleteConstraints
    rw [if_neg h1]

theorem delObj_eq {p : Prob} (hp : Reachable n p A) (name : String) :
    (p.deleteObjective name = (p, some .keyError) ∧ name ∉ (objsSig p).map Prod.fst) ∨
    (name ∈ (objsSig p).map Prod.fst ∧ ∃ q, p.deleteObjective name = (q, none) ∧ Reachable n q A
      ∧ consSig q = consSig p ∧ objsSig q = (objsSig p).filter (fun c => c.1 != name) ∧ q.scales = p.scales) := by
  by_cases h1 : name ∈ (objsSig p).map Prod.fst
  · have h2 := h1
    rw [← objNames_of_sig, ← hasKey_iff] at h2
    have hdel : p.deleteObjective name = ({ p with objs := dropKey p.objs name }, none) := by
      unfold Prob.deleteObjective
      rw [if_pos h2]
    have hs := Reachable.step hp (.delObj name) trivial
    simp only [Prob.step, hdel] at hs
    refine Or.inr ⟨h1, _, hdel, hs, rfl, ?_, rfl⟩
    simp [objsSig, dropKey, List.filter_map, Function.comp_def]
  · refine Or.inl ⟨?_, h1⟩
    rw [← objNames_of_sig, ← hasKey_iff] at h1
    unfold Prob.deleteObjective
    rw [if_neg h1]

/-! ## The structure of the Hessian -/

theorem structure_facts {p : Prob} (hp : Reachable n p A) (hne : p.cons ≠ []) :
    Reachable n p.hessianstructure.1 A ∧ consSig p.hessianstructure.1 = consSig p ∧ objsSig p.hessianstructure.1 = objsSig p
      ∧ p.hessianstructure.1.scales = p.scales ∧ MaskOk p.hessianstructure.1 ∧ ∃ m, p.hessianstructure.1.idxTriu = some m ∧
        m.length = nnz p := by
  have hr := Reachable.step hp .queryHessStructure trivial
  simp only [Prob.step] at hr
  have hpieces : p.hessPieces.isEmpty = false := by
    unfold Prob.hessPieces
    cases h : p.cons with
    | nil => exact absurd h hne
    | cons a l => simp
  have hlen : ((p.hessPieces.map Prod.fst).flatten).length = ((p.hessPieces.map Prod.snd).flatten).length := by
    have : ∀ q ∈ p.hessPieces, q.1.length = q.2.length := by
      intro q hq
      unfold Prob.hessPieces at hq
      rcases List.mem_append.mp hq with h | h
      · obtain ⟨c, hc, rfl⟩ := List.mem_map.mp h
        obtain ⟨con, jac, hess, js, hs, k, e, _, hh, _⟩ := hp.inv.cons c hc
        rw [e]
        exact hh.1.1
      · obtain ⟨o, ho, rfl⟩ := List.mem_map.mp h
        obtain ⟨f, g, h', st, e, hu, _⟩ := hp.inv.objs o ho
        rw [e]
        exact hu.1.1
    simp only [List.length_flatten, List.map_map]
    congr 1
    exact List.map_congr_left fun q hq => this q hq
  have he : p.hessianstructure.1 = { p with idxTriu := some (List.zipWith (fun r c => decide (r ≤ c))
      (p.hessPieces.map Prod.fst).flatten (p.hessPieces.map Prod.snd).flatten) } := by
    unfold Prob.hessianstructure
    simp [hpieces]
  have hm : ∃ m, p.hessianstructure.1.idxTriu = some m ∧ m.length = nnz p := by
    rw [he]
    refine ⟨_, rfl, ?_⟩
    rw [List.length_zipWith, ← hlen, Nat.min_self]
    rfl
  have hn : nnz p.hessianstructure.1 = nnz p := by rw [he]; rfl
  refine ⟨hr, by rw [he]; rfl, by rw [he]; rfl, by rw [he], ?_, hm⟩
  intro m hm'
  obtain ⟨m', h1, h2⟩ := hm
  rw [h1, Option.some.injEq] at hm'
  rw [hn, ← hm', h2]

theorem hessian_fst (p : Prob) (x lam : List ℝ) (sigma : ℝ) :
    (p.hessian x lam sigma).1 = p ∨ (p.hessian x lam sigma).1 = p.hessianstructure.1 := by
  unfold Prob.hessian
  dsimp only
  cases p.idxTriu with
  | some m =>
    left
    dsimp only
    split
    · rfl
    · split <;> rfl
  | none =>
    right
    dsimp only
    cases p.hessianstructure.2 with
    | error e => rfl
    | ok a =>
      dsimp only
      split
      · rfl
      · split <;> rfl

/-- With a mask that fits, evaluating the Hessian does not raise. -/
theorem hessian_ok {p : Prob} (hp : Reachable n p A) (hne : p.cons ≠ []) (hm : MaskOk p) {x lam : List ℝ} (hx : x.length = n)
    (hl : lam.length = p.numCon) (sigma : ℝ) : ∃ v, (p.hessian x lam sigma).2 = .ok v := by
  obtain ⟨_, _, _, _, vals, _, _, _, _, h5, h6, _⟩ := C14_hessian hp (Or.inl hne) x lam sigma hx hl
  obtain ⟨_, _, _, _, _, m, hm1, hm2⟩ := structure_facts hp hne
  have h6 := congrArg Prod.snd h6
  dsimp only at h6
  have hpieces : p.hessPieces.isEmpty = false := by
    unfold Prob.hessPieces
    cases h : p.cons with
    | nil => exact absurd h hne
    | cons a l => simp
  have hec : p.hessianstructure.1.cons = p.cons := by unfold Prob.hessianstructure; simp [hpieces]
  have heo : p.hessianstructure.1.objs = p.objs := by unfold Prob.hessianstructure; simp [hpieces]
  have hes : ∀ l : List ℝ, p.hessianstructure.1.splitConstraints l = p.splitConstraints l := by
    intro l
    unfold Prob.splitConstraints
    rw [hec]
  unfold Prob.hessian at h6
  simp only [hm1, hec, heo, hes] at h6
  have key : (((p.cons.map fun c => c.2.hessian x (lookupD (p.splitConstraints lam) c.1)) ++
      (p.objs.map fun o => (o.2.hessian x).map (· * sigma))).isEmpty = false) ∧
      m.length = ((p.cons.map fun c => c.2.hessian x (lookupD (p.splitConstraints lam) c.1)) ++
      (p.objs.map fun o => (o.2.hessian x).map (· * sigma))).flatten.length := by
    by_cases hv : ((p.cons.map fun c => c.2.hessian x (lookupD (p.splitConstraints lam) c.1)) ++
      (p.objs.map fun o => (o.2.hessian x).map (· * sigma))).isEmpty = true
    · rw [if_pos hv] at h6
      cases h6
    · rw [if_neg hv] at h6
      refine ⟨by simpa using hv, ?_⟩
      by_contra hc
      rw [if_pos hc] at h6
      cases h6
  unfold Prob.hessian
  cases hi : p.idxTriu with
  | some m' =>
    dsimp only
    have := hm m' hi
    rw [if_neg (by simp [key.1]), if_neg (by rw [this, ← hm2, key.2]; simp)]
    exact ⟨_, rfl⟩
  | none =>
    simp only [h5, hm1, Option.getD_some]
    rw [if_neg (by simp [key.1]), if_neg (by rw [key.2]; simp)]
    exact ⟨_, rfl⟩

/-! ## Scales -/

/-- Rescaling keeps what does not depend on the scales of an objective. -/
theorem setScales_objs {α : Type} (f : Obj → α) (hf : ∀ (o : Obj) (s : List ℝ), f (o.setInputScales s).1 = f o) (L : Layout) (nr : Nat)
    (cd : Bool) (p : Prob) (cfgs : List ScaleConfig) :
    (Ocp.setScales L nr cd p cfgs).1.objs.map (fun o => f o.2) = p.objs.map (fun o => f o.2) ∧
      (Ocp.setScales L nr cd p cfgs).1.idxTriu = p.idxTriu := by
  have h2 : ∀ (d : List (String × Obj)) (s : List ℝ),
      (applyAll (fun o : Obj => o.setInputScales s) d).1.map (fun o => f o.2) = d.map fun o => f o.2 := by
    intro d s
    induction d with
    | nil => rfl
    | cons a d ih =>
      obtain ⟨k, o⟩ := a
      have := hf o s
      simp only [applyAll]
      rcases e : o.setInputScales s with ⟨o', _ | e'⟩
      · rw [e] at this
        simp only [List.map_cons, ih]
        exact congrArg (· :: _) this
      · rw [e] at this
        simp only [List.map_cons]
        exact congrArg (· :: _) this
  have h3 : ∀ (p : Prob) (s : List ℝ), (p.setScales s).1.objs.map (fun o => f o.2) = p.objs.map (fun o => f o.2) ∧
      (p.setScales s).1.idxTriu = p.idxTriu := by
    intro p s
    unfold Prob.setScales
    dsimp only
    split
    · exact ⟨h2 p.objs s, rfl⟩
    · exact ⟨h2 p.objs s, rfl⟩
  have h4 : ∀ (p : Prob) (name : String) (k : List ℝ), (p.setConScales name k).1.objs.map (fun o => f o.2) = p.objs.map (fun o => f o.2) ∧
      (p.setConScales name k).1.idxTriu = p.idxTriu := by
    intro p name k
    unfold Prob.setConScales
    split <;> exact ⟨rfl, rfl⟩
  unfold Ocp.setScales
  split
  · exact ⟨rfl, rfl⟩
  · rename_i s _
    split
    · rename_i q e he
      rw [← (h3 p s.dec).1, ← (h3 p s.dec).2, he]
      exact ⟨rfl, rfl⟩
    · rename_i q he
      have hq : q.objs.map (fun o => f o.2) = p.objs.map (fun o => f o.2) ∧ q.idxTriu = p.idxTriu := by
        rw [← (h3 p s.dec).1, ← (h3 p s.dec).2, he]
        exact ⟨rfl, rfl⟩
      dsimp only
      split
      · exact ⟨(h4 _ _ _).1.trans hq.1, (h4 _ _ _).2.trans hq.2⟩
      · split
        · rename_i q2 e he2
          have := h4 q "model_algebra" (List.replicate L.numStages (s.get "states" ++ (s.get "con_outputs" ++ List.replicate nr 1))).flatten
          rw [he2] at this
          exact ⟨this.1.trans hq.1, this.2.trans hq.2⟩
        · rename_i q2 he2
          have := h4 q "model_algebra" (List.replicate L.numStages (s.get "states" ++ (s.get "con_outputs" ++ List.replicate nr 1))).flatten
          rw [he2] at this
          exact ⟨(h4 _ _ _).1.trans (this.1.trans hq.1), (h4 _ _ _).2.trans (this.2.trans hq.2)⟩

theorem hessStruct_setInput (o : Obj) (s : List ℝ) : (o.setInputScales s).1.hessStruct = o.hessStruct := by
  unfold Obj.setInputScales Obj.updateHessScales
  dsimp only
  cases gather s o.hessStruct.1 with
  | error e => rfl
  | ok a =>
    cases gather s o.hessStruct.2 with
    | error e => rfl
    | ok b => rfl

theorem mask_setScales {L : Layout} {nr : Nat} {cd : Bool} {p q : Prob} {cfgs : List ScaleConfig}
    (h : Ocp.setScales L nr cd p cfgs = (q, none)) (hs : List.Forall₂ Same p.cons q.cons) (hm : MaskOk p) : MaskOk q := by
  have h1 := setScales_objs Obj.hessStruct hessStruct_setInput L nr cd p cfgs
  rw [h] at h1
  have h2 : q.cons.map (fun c => c.2.hessStruct) = p.cons.map fun c => c.2.hessStruct := by
    generalize p.cons = a at hs
    generalize q.cons = b at hs
    induction hs with
    | nil => rfl
    | cons h _ ih =>
      obtain ⟨_, _, _, _, _, _, _, h8⟩ := h
      simp only [List.map_cons, ih, h8]
  have h3 : nnz q = nnz p := by
    unfold nnz Prob.hessPieces
    rw [h2]
    congr 4
    exact h1.1
  intro m hm'
  rw [h3]
  exact hm m (h1.2 ▸ hm')

end Lumos.Use
