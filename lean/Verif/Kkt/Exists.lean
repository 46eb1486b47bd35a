import Verif.Kkt.Cond
import Mathlib.Topology.Instances.EReal.Lemmas
import Mathlib.Topology.Order.Compact
/-!
# C111: when there is an optimum to find
-/

namespace Lumos.Kkt

open Lumos Lumos.NLP Lumos.Ocp Lumos.Ocp.OCP Lumos.DecVar Lumos.DecVar.Layout Lumos.Bounds

/-! ## Specification -/

/-- The model's state derivatives, outputs and residuals depend continuously on states, inputs and the mesh value, on a set of them. -/
structure ContinuousModel (M : ExplicitModel) (K : Set ((Fin M.nx → ℝ) × (Fin M.nu → ℝ) × ℝ)) : Prop where
  f : ∀ k : Nat, ContinuousOn (fun q => (M.f (List.ofFn q.1) (List.ofFn q.2.1) q.2.2).getD k 0) K
  h : ∀ k : Nat, ContinuousOn (fun q => (M.h (List.ofFn q.1) (List.ofFn q.2.1) q.2.2).getD k 0) K
  r : ∀ k : Nat, ContinuousOn (fun q => (M.r (List.ofFn q.1) (List.ofFn q.2.1) q.2.2).getD k 0) K

/-- The states, the inputs and the mesh value of a stage. -/
noncomputable def stagePoint (S : Setup) (x : List ℝ) (s : Nat) : (Fin S.c.M.nx → ℝ) × (Fin S.c.M.nu → ℝ) × ℝ :=
  (fun k => (readGroup S.c.o.L x "states" s).getD k 0, fun k => (readGroup S.c.o.L x "inputs" s).getD k 0, S.c.mesh.getD s 0 * readScale S.c.o x)

/-- All states, inputs and global variables have finite bounds. (State derivatives and outputs need none.) -/
def Limited (S : Setup) (b : Built) : Prop := ∀ v i, S.c.o.L.IsVar v → S.c.o.L.query v = .ok (.scalar i) →
  (∀ s n, v ≠ .stage s "states_dot" n ∧ v ≠ .stage s "con_outputs" n) → b.bounds.lb.getD i 0 ≠ ⊥ ∧ b.bounds.ub.getD i 0 ≠ ⊤

/-! ## A continuous function on a closed and bounded set -/

theorem ofFn_getD {n : Nat} {l : List ℝ} (h : l.length = n) : List.ofFn (fun k : Fin n => l.getD k 0) = l := by
  apply List.ext_getElem
  · simp [h]
  · intro i hi hi'
    simp [hi']

theorem exists_best {n : Nat} {f : List ℝ → ℝ} {P : List ℝ → Prop} (hc : IsClosed {x : Fin n → ℝ | P (List.ofFn x)})
    (hb : ∀ j : Fin n, ∃ R : ℝ, ∀ x : Fin n → ℝ, P (List.ofFn x) → |x j| ≤ R)
    (hf : Continuous fun x : Fin n → ℝ => f (List.ofFn x)) (hne : ∃ x : List ℝ, x.length = n ∧ P x) : ∃ x, Best n f P x := by
  choose R hR using hb
  have hK : IsCompact (Set.univ.pi fun j : Fin n => Set.Icc (-R j) (R j)) := isCompact_univ_pi fun j => isCompact_Icc
  have hF : IsCompact {x : Fin n → ℝ | P (List.ofFn x)} := hK.of_isClosed_subset hc
    (fun x hx j _ => abs_le.mp (hR j x hx))
  obtain ⟨x0, h0, h1⟩ := hne
  obtain ⟨z, hz, hmin⟩ := hF.exists_isMinOn ⟨fun j : Fin n => x0.getD j 0, (show P _ by rw [ofFn_getD h0]; exact h1)⟩ hf.continuousOn
  refine ⟨List.ofFn z, ⟨by simp, hz⟩, fun y hy hP => ?_⟩
  have ey := ofFn_getD hy
  have h2 : f (List.ofFn z) ≤ f (List.ofFn fun j : Fin n => y.getD j 0) := hmin (show P _ by rw [ey]; exact hP)
  rw [ey] at h2
  exact h2

/-! ## Reading is continuous -/

theorem getD_ofFn {n : Nat} (x : Fin n → ℝ) (i : Nat) : (List.ofFn x).getD i 0 = if h : i < n then x ⟨i, h⟩ else 0 := by
  split
  · rename_i h
    simp [h]
  · rename_i h
    simp [h]

theorem getD_continuous {n : Nat} (i : Nat) : Continuous fun x : Fin n → ℝ => (List.ofFn x).getD i 0 := by
  simp only [getD_ofFn]
  split
  · exact continuous_apply _
  · exact continuous_const

theorem getVar_cases (L : Layout) (n : Nat) (g nm : String) (st : Option Int) :
    (∃ i, ∀ x : Fin n → ℝ, L.getVar (List.ofFn x) g nm st = .ok (.scalar ((List.ofFn x).getD i 0))) ∨
    ∀ x : Fin n → ℝ, ∀ a, L.getVar (List.ofFn x) g nm st ≠ .ok (.scalar a) := by
  cases h : L.indexInDec g nm st with
  | error e => right; intro x a; simp [getVar, h, bind, Except.bind]
  | ok idx =>
    cases idx with
    | scalar i =>
      by_cases hi : i < n
      · left
        refine ⟨i, fun x => ?_⟩
        simp [getVar, h, bind, Except.bind, getIdx, getAt, hi, pure, Except.pure]
      · right
        intro x a
        simp [getVar, h, bind, Except.bind, getIdx, getAt, hi]
    | array is =>
      right
      intro x a
      simp only [getVar, h, bind, Except.bind, getIdx]
      split <;> simp [pure, Except.pure]

theorem readAt_continuous (L : Layout) (n : Nat) (g nm : String) (s : Nat) :
    Continuous fun x : Fin n → ℝ => readAt L (List.ofFn x) g nm s := by
  rcases getVar_cases L n g nm (some (s : Int)) with ⟨i, h⟩ | h
  · simp only [readAt, h]
    exact getD_continuous i
  · have : ∀ x : Fin n → ℝ, readAt L (List.ofFn x) g nm s = 0 := by
      intro x
      unfold readAt
      split
      · rename_i a ha
        exact absurd ha (h x a)
      · rfl
    simp only [this]
    exact continuous_const

theorem readScale_continuous (o : OCP) (n : Nat) : Continuous fun x : Fin n → ℝ => readScale o (List.ofFn x) := by
  unfold readScale
  cases o.fixedScale with
  | some s => exact continuous_const
  | none =>
    dsimp only
    rcases getVar_cases o.L n "global" "mesh_scale" none with ⟨i, h⟩ | h
    · simp only [h]
      exact getD_continuous i
    · have : ∀ x : Fin n → ℝ, (match o.L.getVar (List.ofFn x) "global" "mesh_scale" none with
          | .ok (.scalar a) => a
          | _ => (0 : ℝ)) = 0 := by
        intro x
        split
        · rename_i a ha
          exact absurd ha (h x a)
        · rfl
      exact (continuous_congr this).mpr continuous_const

theorem readGroup_getD (L : Layout) (x : List ℝ) (g : String) (s k : Nat) :
    (readGroup L x g s).getD k 0 = match (L.namesOf g)[k]? with | some n => readAt L x g n s | none => 0 := by
  unfold readGroup
  rw [List.getD_eq_getElem?_getD, List.getElem?_map]
  cases (L.namesOf g)[k]? <;> rfl

theorem readGroup_continuous (L : Layout) (n : Nat) (g : String) (s k : Nat) :
    Continuous fun x : Fin n → ℝ => (readGroup L (List.ofFn x) g s).getD k 0 := by
  simp only [readGroup_getD]
  cases (L.namesOf g)[k]? with
  | none => exact continuous_const
  | some nm => exact readAt_continuous L n g nm s

theorem stagePoint_continuous (S : Setup) (n s : Nat) : Continuous fun x : Fin n → ℝ => stagePoint S (List.ofFn x) s := by
  unfold stagePoint
  refine Continuous.prodMk ?_ (Continuous.prodMk ?_ ?_)
  · exact continuous_pi fun k => readGroup_continuous _ _ _ _ _
  · exact continuous_pi fun k => readGroup_continuous _ _ _ _ _
  · exact continuous_const.mul (readScale_continuous _ _)

theorem taskCost_continuous (S : Setup) (n : Nat) : Continuous fun x : Fin n → ℝ => taskCost S (List.ofFn x) := by
  unfold taskCost
  refine Continuous.add ?_ ?_
  · split
    · exact readScale_continuous _ _
    · exact (readAt_continuous _ _ _ _ _).sub (readAt_continuous _ _ _ _ _)
  · split
    · refine Continuous.div_const (continuous_finsetSum _ fun s _ => ?_) _
      exact (readAt_continuous _ _ _ _ _).pow 2
    · exact continuous_const

theorem within_closed (lb ub : List EReal) (n : Nat) : IsClosed {x : Fin n → ℝ | Within lb ub (List.ofFn x)} := by
  unfold Within
  simp only [List.length_ofFn, Set.ofPred_forall]
  refine isClosed_iInter fun j => isClosed_iInter fun _ => ?_
  have hj : Continuous fun x : Fin n → ℝ => (((List.ofFn x).getD j 0 : ℝ) : EReal) := continuous_coe_real_ereal.comp (getD_continuous j)
  exact (isClosed_le continuous_const hj).inter (isClosed_le hj continuous_const)

/-! ## The set of solutions within the bounds -/

variable {S : Setup} {D D' : List ℝ → ℝ → Prop} {b b' : Built}

theorem length_readGroup (L : Layout) (x : List ℝ) (g : String) (s : Nat) : (readGroup L x g s).length = L.size g := by
  simp [readGroup, Layout.size]

theorem stagePoint_lists (h : S.Good D) (x : List ℝ) (s : Nat) : List.ofFn (stagePoint S x s).1 = readGroup S.c.o.L x "states" s ∧
    List.ofFn (stagePoint S x s).2.1 = readGroup S.c.o.L x "inputs" s :=
  ⟨ofFn_getD (by rw [length_readGroup, h.cond.sizeX]), ofFn_getD (by rw [length_readGroup, h.cond.sizeU])⟩

theorem list_eq_of_getD {l m : List ℝ} (h : l.length = m.length) (e : ∀ k, l.getD k 0 = m.getD k 0) : l = m := by
  apply List.ext_getElem h
  intro i hi hi'
  have := e i
  simpa [hi, hi'] using this

/-- The functions whose values are the state derivatives, outputs and residuals at a stage. -/
theorem model_continuousOn (h : S.Good D) {K : Set ((Fin S.c.M.nx → ℝ) × (Fin S.c.M.nu → ℝ) × ℝ)} (hM : ContinuousModel S.c.M K)
    {B : Set (Fin S.c.o.L.numDec → ℝ)} {s : Nat} (hB : ∀ x ∈ B, stagePoint S (List.ofFn x) s ∈ K) (k : Nat) :
    ContinuousOn (fun x : Fin S.c.o.L.numDec → ℝ => (S.c.M.f (readGroup S.c.o.L (List.ofFn x) "states" s) (readGroup S.c.o.L (List.ofFn x) "inputs" s)
      (S.c.mesh.getD s 0 * readScale S.c.o (List.ofFn x))).getD k 0) B ∧
    ContinuousOn (fun x : Fin S.c.o.L.numDec → ℝ => (S.c.M.h (readGroup S.c.o.L (List.ofFn x) "states" s) (readGroup S.c.o.L (List.ofFn x) "inputs" s)
      (S.c.mesh.getD s 0 * readScale S.c.o (List.ofFn x))).getD k 0) B ∧
    ContinuousOn (fun x : Fin S.c.o.L.numDec → ℝ => (S.c.M.r (readGroup S.c.o.L (List.ofFn x) "states" s) (readGroup S.c.o.L (List.ofFn x) "inputs" s)
      (S.c.mesh.getD s 0 * readScale S.c.o (List.ofFn x))).getD k 0) B := by
  have hs := (stagePoint_continuous S S.c.o.L.numDec s).continuousOn (s := B)
  have e := fun x : Fin S.c.o.L.numDec → ℝ => stagePoint_lists h (List.ofFn x) s
  refine ⟨?_, ?_, ?_⟩
  · have := (hM.f k).comp hs hB
    refine this.congr fun x _ => ?_
    simp only [Function.comp, (e x).1, (e x).2]
    rfl
  · have := (hM.h k).comp hs hB
    refine this.congr fun x _ => ?_
    simp only [Function.comp, (e x).1, (e x).2]
    rfl
  · have := (hM.r k).comp hs hB
    refine this.congr fun x _ => ?_
    simp only [Function.comp, (e x).1, (e x).2]
    rfl

theorem task_closed (h : S.Good D) {K : Set ((Fin S.c.M.nx → ℝ) × (Fin S.c.M.nu → ℝ) × ℝ)} (hM : ContinuousModel S.c.M K)
    (hK : ∀ x : List ℝ, x.length = S.c.o.L.numDec → Within b.bounds.lb b.bounds.ub x → ∀ s, s < S.c.o.L.numStages → stagePoint S x s ∈ K) :
    IsClosed {x : Fin S.c.o.L.numDec → ℝ | Task S b (List.ofFn x)} := by
  set F := {x : Fin S.c.o.L.numDec → ℝ | Task S b (List.ofFn x)} with hF
  have hw := within_closed b.bounds.lb b.bounds.ub S.c.o.L.numDec
  have hsub : closure F ⊆ {x : Fin S.c.o.L.numDec → ℝ | Within b.bounds.lb b.bounds.ub (List.ofFn x)} :=
    closure_minimal (fun x hx => hx.2) hw
  have lim : ∀ {g g' : (Fin S.c.o.L.numDec → ℝ) → ℝ}, ContinuousOn g (closure F) → ContinuousOn g' (closure F) → (∀ y ∈ F, g y = g' y) →
      ∀ x ∈ closure F, g x = g' x := by
    intro g g' hg hg' he x hx
    exact Set.EqOn.of_subset_closure (s := F) (t := closure F) he hg hg' subset_closure (subset_refl _) hx
  have hk : ∀ s, s < S.c.o.L.numStages → ∀ x ∈ closure F, stagePoint S (List.ofFn x) s ∈ K :=
    fun s hs x hx => hK _ (by simp) (hsub hx) s hs
  have ra := fun g nm s => (readAt_continuous S.c.o.L S.c.o.L.numDec g nm s).continuousOn (s := closure F)
  have rs := (readScale_continuous S.c.o S.c.o.L.numDec).continuousOn (s := closure F)
  have rg := fun g s k => (readGroup_continuous S.c.o.L S.c.o.L.numDec g s k).continuousOn (s := closure F)
  apply isClosed_of_closure_subset
  intro x hx
  refine ⟨⟨?_, ?_, ?_, ?_, ?_⟩, hsub hx⟩
  · intro i l k hi hl n nd hn hnd
    refine lim (g := fun x => ∑ j ∈ Finset.range S.c.o.L.nspi, S.c.o.A l j * readAt S.c.o.L (List.ofFn x) "states" n (i * (S.c.o.L.nspi - 1) + j))
      (g' := fun x => S.c.o.normLen.getD i 0 * readScale S.c.o (List.ofFn x) *
        ∑ j ∈ Finset.range S.c.o.L.nspi, S.c.o.B l j * readAt S.c.o.L (List.ofFn x) "states_dot" nd (i * (S.c.o.L.nspi - 1) + j)) ?_ ?_ ?_ x hx
    · exact continuousOn_finsetSum _ fun j _ => continuousOn_const.mul (ra _ _ _)
    · exact (continuousOn_const.mul rs).mul (continuousOn_finsetSum _ fun j _ => continuousOn_const.mul (ra _ _ _))
    · exact fun y hy => hy.1.defects i l k hi hl n nd hn hnd
  · intro s hs
    refine list_eq_of_getD ?_ fun k => lim (model_continuousOn h hM (hk s hs) k).1 (rg "states_dot" s k) (fun y hy => ?_) x hx
    · rw [h.cond.model.lenF _ _ _ (by rw [length_readGroup, h.cond.sizeX]) (by rw [length_readGroup, h.cond.sizeU]), length_readGroup, h.cond.sizeD]
    · simp only [hy.1.dynamics s hs]
  · intro s hs
    refine list_eq_of_getD ?_ fun k => lim (model_continuousOn h hM (hk s hs) k).2.1 (rg "con_outputs" s k) (fun y hy => ?_) x hx
    · rw [h.cond.model.lenH _ _ _ (by rw [length_readGroup, h.cond.sizeX]) (by rw [length_readGroup, h.cond.sizeU]), length_readGroup, h.cond.sizeY]
    · simp only [hy.1.outputs s hs]
  · intro s hs
    rw [all_zero_iff]
    intro k hkl
    refine lim (model_continuousOn h hM (hk s hs) k).2.2 continuousOn_const (fun y hy => ?_) x hx
    have := hy.1.residuals s hs
    rw [all_zero_iff] at this
    by_cases hlt : k < (S.c.M.r (readGroup S.c.o.L (List.ofFn y) "states" s) (readGroup S.c.o.L (List.ofFn y) "inputs" s)
        (S.c.mesh.getD s 0 * readScale S.c.o (List.ofFn y))).length
    · exact this k hlt
    · rw [List.getD_eq_getElem?_getD, List.getElem?_eq_none (by omega)]; rfl
  · intro hc g n hg hn hne
    exact lim (ra g n 0) (ra g n _) (fun y hy => hy.1.periodic hc g n hg hn hne) x hx

/-! ## It is bounded -/

theorem readAt_of_query {L : Layout} {x : List ℝ} {g nm : String} {s i : Nat} (hq : L.query (.stage s g nm) = .ok (.scalar i)) :
    readAt L x g nm s = x.getD i 0 := by
  have hq' : L.indexInDec g nm (some (s : Int)) = .ok (.scalar i) := hq
  unfold readAt
  simp only [getVar, hq', bind, Except.bind, getIdx, getAt]
  cases h : x[i]? <;> simp [h, pure, Except.pure]

theorem readScale_of_query {o : OCP} {x : List ℝ} {i : Nat} (hf : o.fixedScale = none) (hq : o.L.query (.glob "mesh_scale") = .ok (.scalar i)) :
    readScale o x = x.getD i 0 := by
  have hq' : o.L.indexInDec "global" "mesh_scale" none = .ok (.scalar i) := hq
  unfold readScale
  simp only [hf, getVar, hq', bind, Except.bind, getIdx, getAt]
  cases h : x[i]? <;> simp [h, pure, Except.pure]

/-- The positions of state derivatives and outputs. -/
def Loose (L : Layout) (j : Nat) : Prop := ∃ s n, ∃ g, (g = "states_dot" ∨ g = "con_outputs") ∧ L.IsVar (.stage s g n) ∧
  L.query (.stage s g n) = .ok (.scalar j)

theorem not_loose {L : Layout} (hL : L.Made) {v : Var} {i : Nat} (hv : L.IsVar v) (hq : L.query v = .ok (.scalar i))
    (h : ∀ s n, v ≠ .stage s "states_dot" n ∧ v ≠ .stage s "con_outputs" n) : ¬ Loose L i := by
  rintro ⟨s, n, g, hg, hv', hq'⟩
  have := C01_index_injective hL hv hv' (by rw [hq, hq'])
  rcases hg with rfl | rfl
  · exact (h s n).1 this
  · exact (h s n).2 this

theorem isVar_names {L : Layout} {s : Nat} {g n : String} (h : L.IsVar (.stage s g n)) : n ∈ L.namesOf g := by
  obtain ⟨_, _, ns, h1, h2⟩ := h
  unfold namesOf
  rw [h1]
  exact h2

open Classical in
/-- A point with other state derivatives and outputs. -/
noncomputable def clip (L : Layout) (x0 x : Fin L.numDec → ℝ) : Fin L.numDec → ℝ := fun j => if Loose L j then x0 j else x j

theorem clip_getD {L : Layout} (x0 x : Fin L.numDec → ℝ) {i : Nat} (h : ¬ Loose L i) :
    (List.ofFn (clip L x0 x)).getD i 0 = (List.ofFn x).getD i 0 := by
  rw [getD_ofFn, getD_ofFn]
  split
  · simp [clip, h]
  · rfl

theorem clip_group (h : S.Good D) (x0 x : Fin S.c.o.L.numDec → ℝ) {g : String} (hg : g = "states" ∨ g = "inputs") {s : Nat}
    (hs : s < S.c.o.L.numStages) : readGroup S.c.o.L (List.ofFn (clip S.c.o.L x0 x)) g s = readGroup S.c.o.L (List.ofFn x) g s := by
  unfold readGroup
  refine List.map_congr_left fun n hn => ?_
  have hL := h.cond.ocp.made
  have hgm : g ∈ S.c.o.L.groups := by
    rw [h.cond.groups]
    rcases hg with rfl | rfl <;> simp
  have hv := isVar_of_known hL hgm hn s hs
  obtain ⟨i, hq, _⟩ := C01_index_in_range hL hv
  rw [readAt_of_query hq, readAt_of_query hq]
  refine clip_getD x0 x (not_loose hL hv hq fun s' n' => ?_)
  rcases hg with rfl | rfl <;> simp

theorem clip_scale (h : S.Good D) (x0 x : Fin S.c.o.L.numDec → ℝ) :
    readScale S.c.o (List.ofFn (clip S.c.o.L x0 x)) = readScale S.c.o (List.ofFn x) := by
  cases hf : S.c.o.fixedScale with
  | some s => simp [readScale, hf]
  | none =>
    have hL := h.cond.ocp.made
    have hv : S.c.o.L.IsVar (.glob "mesh_scale") := List.mem_of_getLast? (h.last hf)
    obtain ⟨i, hq, _⟩ := C01_index_in_range hL hv
    rw [readScale_of_query hf hq, readScale_of_query hf hq]
    exact clip_getD x0 x (not_loose hL hv hq fun s' n' => by simp)

theorem coe_bounds {lo hi : EReal} (h1 : lo ≠ ⊥) (h2 : hi ≠ ⊤) {a : ℝ} (ha : lo ≤ (a : EReal) ∧ (a : EReal) ≤ hi) :
    |a| ≤ max |lo.toReal| |hi.toReal| := by
  have l1 : lo ≠ ⊤ := fun e => by rw [e, top_le_iff] at ha; exact EReal.coe_ne_top a ha.1
  have l2 : hi ≠ ⊥ := fun e => by rw [e, le_bot_iff] at ha; exact EReal.coe_ne_bot a ha.2
  have k1 : lo.toReal ≤ a := by
    have := ha.1
    rw [← EReal.coe_toReal l1 h1] at this
    exact_mod_cast this
  have k2 : a ≤ hi.toReal := by
    have := ha.2
    rw [← EReal.coe_toReal h2 l2] at this
    exact_mod_cast this
  rw [abs_le]
  constructor
  · have := neg_abs_le lo.toReal
    have := le_max_left |lo.toReal| |hi.toReal|
    linarith
  · have := le_abs_self hi.toReal
    have := le_max_right |lo.toReal| |hi.toReal|
    linarith

theorem task_bounded (h : S.Good D) {K : Set ((Fin S.c.M.nx → ℝ) × (Fin S.c.M.nu → ℝ) × ℝ)} (hM : ContinuousModel S.c.M K)
    (hK : ∀ x : List ℝ, x.length = S.c.o.L.numDec → Within b.bounds.lb b.bounds.ub x → ∀ s, s < S.c.o.L.numStages → stagePoint S x s ∈ K)
    (hlim : Limited S b) {x0 : Fin S.c.o.L.numDec → ℝ} (h0 : Task S b (List.ofFn x0)) (j : Fin S.c.o.L.numDec) :
    ∃ R : ℝ, ∀ x : Fin S.c.o.L.numDec → ℝ, Task S b (List.ofFn x) → |x j| ≤ R := by
  classical
  have hL := h.cond.ocp.made
  -- a variable that has bounds
  have hfin : ∀ j : Fin S.c.o.L.numDec, ¬ Loose S.c.o.L j → ∃ R : ℝ, ∀ x : Fin S.c.o.L.numDec → ℝ,
      Within b.bounds.lb b.bounds.ub (List.ofFn x) → |x j| ≤ R := by
    intro j hj
    obtain ⟨v, hv, hq⟩ := C01_index_surjective hL j j.2
    have hne : ∀ s n, v ≠ .stage s "states_dot" n ∧ v ≠ .stage s "con_outputs" n := by
      intro s n
      constructor <;> rintro rfl
      · exact hj ⟨s, n, _, Or.inl rfl, hv, hq⟩
      · exact hj ⟨s, n, _, Or.inr rfl, hv, hq⟩
    obtain ⟨k1, k2⟩ := hlim v j hv hq hne
    refine ⟨_, fun x hx => coe_bounds k1 k2 ?_⟩
    have := hx j (by simp)
    rwa [getD_ofFn, dif_pos j.2] at this
  by_cases hj : Loose S.c.o.L j
  swap
  · obtain ⟨R, hR⟩ := hfin j hj
    exact ⟨R, fun x hx => hR x hx.2⟩
  -- the points within the bounds that agree with `x0` in the other variables
  set B : Set (Fin S.c.o.L.numDec → ℝ) := {y | Within b.bounds.lb b.bounds.ub (List.ofFn y) ∧ ∀ j, Loose S.c.o.L (j : Fin S.c.o.L.numDec) → y j = x0 j}
    with hBdef
  have hBclosed : IsClosed B := by
    have hB : IsClosed {y : Fin S.c.o.L.numDec → ℝ | ∀ j : Fin S.c.o.L.numDec, Loose S.c.o.L j → y j = x0 j} := ?_
    · exact (within_closed _ _ _).inter hB
    simp only [Set.ofPred_forall]
    exact isClosed_iInter fun j => isClosed_iInter fun _ => isClosed_eq (continuous_apply j) continuous_const
  have hBc : IsCompact B := by
    have hb : ∀ j : Fin S.c.o.L.numDec, ∃ R : ℝ, ∀ y ∈ B, |y j| ≤ R := by
      intro j
      by_cases hj : Loose S.c.o.L j
      · exact ⟨|x0 j|, fun y hy => by rw [hy.2 j hj]⟩
      · obtain ⟨R, hR⟩ := hfin j hj
        exact ⟨R, fun y hy => hR y hy.1⟩
    choose R hR using hb
    exact (isCompact_univ_pi fun j => isCompact_Icc (a := -R j) (b := R j)).of_isClosed_subset hBclosed
      (fun y hy j _ => abs_le.mp (hR j y hy))
  have hclip : ∀ x : Fin S.c.o.L.numDec → ℝ, Task S b (List.ofFn x) → clip S.c.o.L x0 x ∈ B := by
    intro x hx
    refine ⟨fun i hi => ?_, fun j hj => by simp [clip, hj]⟩
    have hi' : i < S.c.o.L.numDec := by simpa using hi
    by_cases hl : Loose S.c.o.L i
    · have := h0.2 i (by simpa using hi')
      rw [getD_ofFn, dif_pos hi'] at this ⊢
      simpa [clip, hl] using this
    · rw [clip_getD x0 x hl]
      exact hx.2 i (by simpa using hi')
  have hBK : ∀ s, s < S.c.o.L.numStages → ∀ x ∈ B, stagePoint S (List.ofFn x) s ∈ K := fun s hs x hx => hK _ (by simp) hx.1 s hs
  obtain ⟨s, n, g, hg, hv, hq⟩ := hj
  have hs := hv.1
  obtain ⟨k, hk⟩ := List.mem_iff_getElem?.mp (isVar_names hv)
  have hread : ∀ x : Fin S.c.o.L.numDec → ℝ, x j = (readGroup S.c.o.L (List.ofFn x) g s).getD k 0 := by
    intro x
    rw [readGroup_getD, hk]
    dsimp only
    rw [readAt_of_query hq, getD_ofFn, dif_pos j.2]
  have e1 := fun x : Fin S.c.o.L.numDec → ℝ => clip_group h x0 x (Or.inl rfl) hs
  have e2 := fun x : Fin S.c.o.L.numDec → ℝ => clip_group h x0 x (Or.inr rfl) hs
  rcases hg with rfl | rfl
  · obtain ⟨R, hR⟩ := hBc.exists_bound_of_continuousOn (model_continuousOn h hM (hBK s hs) k).1
    refine ⟨R, fun x hx => ?_⟩
    have := hR _ (hclip x hx)
    rw [e1, e2, clip_scale h, hx.1.dynamics s hs, ← hread] at this
    simpa using this
  · obtain ⟨R, hR⟩ := hBc.exists_bound_of_continuousOn (model_continuousOn h hM (hBK s hs) k).2.1
    refine ⟨R, fun x hx => ?_⟩
    have := hR _ (hclip x hx)
    rw [e1, e2, clip_scale h, hx.1.outputs s hs, ← hread] at this
    simpa using this

/-! ## Theorems -/

/-- **C111.** If the model is continuous where the bounds allow, the states, inputs and global variables are bounded and the problem has a solution within
the bounds at all, then it has a best one. -/
theorem C111_exists (h : S.Good D) {K : Set ((Fin S.c.M.nx → ℝ) × (Fin S.c.M.nu → ℝ) × ℝ)} (hM : ContinuousModel S.c.M K)
    (hK : ∀ x : List ℝ, x.length = S.c.o.L.numDec → Within b.bounds.lb b.bounds.ub x → ∀ s, s < S.c.o.L.numStages → stagePoint S x s ∈ K)
    (hlim : Limited S b) (hne : ∃ x : List ℝ, x.length = S.c.o.L.numDec ∧ Task S b x) : ∃ x, Best S.c.o.L.numDec (taskCost S) (Task S b) x := by
  obtain ⟨x0, h1, h2⟩ := hne
  exact exists_best (task_closed h hM hK)
    (fun j => task_bounded h hM hK hlim (x0 := fun k : Fin S.c.o.L.numDec => x0.getD k 0) (by rw [ofFn_getD h1]; exact h2) j)
    (taskCost_continuous S _) ⟨x0, h1, h2⟩

/-- Then there is also an optimum of what the solver is given, and it stands for a best solution. -/
theorem C111_solver (h : S.Good D) (hcd : S.isCondensed = false) (hpos : ∀ c ∈ S.scales, 0 < c.value) (hb : S.build = .ok b)
    {K : Set ((Fin S.c.M.nx → ℝ) × (Fin S.c.M.nu → ℝ) × ℝ)} (hM : ContinuousModel S.c.M K)
    (hK : ∀ x : List ℝ, x.length = S.c.o.L.numDec → Within b.bounds.lb b.bounds.ub x → ∀ s, s < S.c.o.L.numStages → stagePoint S x s ∈ K)
    (hlim : Limited S b) (hne : ∃ x : List ℝ, x.length = S.c.o.L.numDec ∧ Task S b x) :
    ∃ f : List ℝ → ℝ, ∃ z, (∀ y, b.prob.objective y = .ok (f y)) ∧ Best S.c.o.L.numDec f (Admitted b.prob b.bounds.lb b.bounds.ub) z ∧
      Best S.c.o.L.numDec (taskCost S) (Task S b) (vmul z b.prob.scales) := by
  obtain ⟨x, hx⟩ := C111_exists h hM hK hlim hne
  obtain ⟨hp, -⟩ := built_facts h hb
  have hz : (vdiv x b.prob.scales).length = S.c.o.L.numDec := len_vdiv hx.1.1 hp.inv.scales.1
  obtain ⟨f, f1, f2, -⟩ := C94_lifted h hcd hpos hb hz
  have e := back hp hx.1.1
  rw [e] at f2
  exact ⟨f, _, f1, f2.mpr hx, by rw [e]; exact hx⟩

/-- The condensed form of such a problem has an optimum too, with the same cost. -/
theorem C111_condensed (h : S.Good D) (h' : (full S).Good D') (hfree : DotsFree S) (hcd : S.isCondensed = true)
    (hpos : ∀ c ∈ S.scales, 0 < c.value) (hb : S.build = .ok b) (hb' : (full S).build = .ok b')
    {K : Set ((Fin S.c.M.nx → ℝ) × (Fin S.c.M.nu → ℝ) × ℝ)} (hM : ContinuousModel S.c.M K)
    (hK : ∀ x : List ℝ, x.length = S.c.o.L.numDec → Within b'.bounds.lb b'.bounds.ub x → ∀ s, s < S.c.o.L.numStages → stagePoint S x s ∈ K)
    (hlim : Limited (full S) b') (hne : ∃ x : List ℝ, x.length = S.c.o.L.numDec ∧ Task (full S) b' x) :
    ∃ f : List ℝ → ℝ, ∃ z x, (∀ y, b.prob.objective y = .ok (f y)) ∧ Best S.c.o.L.numDec f (Admitted b.prob b.bounds.lb b.bounds.ub) z ∧
      Best S.c.o.L.numDec (taskCost (full S)) (Task (full S) b') x ∧ f z = taskCost (full S) x := by
  obtain ⟨f', z', f1, f2, f3⟩ := C111_solver (S := full S) h' rfl hpos hb' hM hK hlim hne
  obtain ⟨g, g', g1, g2, g3⟩ := C94_condensed_cost h h' hfree hcd hpos hb hb'
  have ef : f' = g' := funext fun y => Except.ok.inj ((f1 y).symm.trans (g2 y))
  subst ef
  obtain ⟨z, k1, k2⟩ := (g3 (f' z')).mpr ⟨z', f2, rfl⟩
  refine ⟨g, z, _, g1, k1, f3, ?_⟩
  rw [k2]
  obtain ⟨hp, _, ho, -⟩ := built_facts h' hb'
  have e1 := objective_eq hp ho z'
  rw [f1] at e1
  rw [Except.ok.inj e1]
  exact cost_eq h' hb' f3.1.1

end Lumos.Kkt
