import Verif.Ocp.PenaltyProps
import Verif.Ocp.Build
/-!
# C67: the inputs penalty of the laptime simulation
-/

namespace Lumos.Ocp

open Lumos DecVar DecVar.Layout Conv Finset NLP

theorem readAt_inPos {L : Layout} (hL : L.Made) (hi : "inputs" ∈ L.groups) {x : List ℝ} (hx : x.length = L.numDec) {s k : Nat}
    (hs : s < L.numStages) (hk : k < L.size "inputs") :
    readAt L x "inputs" ((L.namesOf "inputs").getD k "") s = x.getD (inPos L s k) 0 := by
  have h1 : L.indexInDec "inputs" ((L.namesOf "inputs").getD k "") (some (s : Int)) = .ok (.scalar (inPos L s k)) :=
    (query_inPos hL hi hs hk).2
  have hp : inPos L s k < x.length := by rw [hx]; exact inPos_lt hL hi hs hk
  unfold readAt
  simp only [getVar, h1, bind, Except.bind, getIdx, getAt]
  simp [List.getD_eq_getElem?_getD, hp, pure, Except.pure]

theorem sum_map_range {α : Type} (l : List α) (d : α) (f : α → ℝ) : (l.map f).sum = ∑ k ∈ range l.length, f (l.getD k d) := by
  induction l with
  | nil => simp
  | cons a l ih => rw [List.length_cons, sum_range_succ', List.map_cons, List.sum_cons, ih, add_comm]; simp

/-- What the penalty means: the mean over the stages of the weighted squares of the inputs, as a user reads them. -/
noncomputable def meanSquares (L : Layout) (ws : List (String × ℝ)) (x : List ℝ) : ℝ :=
  (∑ s ∈ range L.numStages, ((L.namesOf "inputs").map fun n => weightOf ws n * readAt L x "inputs" n s ^ 2).sum) / L.numStages

theorem penaltyFun_eq {L : Layout} (hL : L.Made) (hi : "inputs" ∈ L.groups) (ws : List (String × ℝ)) {x : List ℝ}
    (hx : x.length = L.numDec) : penaltyFun L ws x = meanSquares L ws x := by
  unfold penaltyFun meanSquares
  congr 1
  refine sum_congr rfl fun s hs => ?_
  rw [sum_map_range _ ""]
  refine sum_congr rfl fun k hk => ?_
  have hk' : k < L.size "inputs" := mem_range.mp hk
  rw [readAt_inPos hL hi hx (mem_range.mp hs) hk', inWeight, mul_comm]

/-- **C67 (value).** The penalty is the mean over the stages of the weighted squares of the inputs. -/
theorem C67_value {L : Layout} (hL : L.Made) (hF : L.Fields) (hi : "inputs" ∈ L.groups) {ws : List (String × ℝ)}
    (hw : ∀ w ∈ ws, w.1 ∈ L.namesOf "inputs") {x : List ℝ} (hx : x.length = L.numDec) :
    inputsPenalty L ws x = .ok (meanSquares L ws x) := by
  rw [penalty_eq hL hF hi hw hx, penaltyFun_eq hL hi ws hx]

/-- **C67 (derivatives).** The gradient and the Hessian, read at the structure given to the solver, are the first and all second
derivatives of the penalty; the structure has one entry for each input of each stage, all on the diagonal. -/
theorem C67_derivatives {L : Layout} (hL : L.Made) (hF : L.Fields) (hi : "inputs" ∈ L.groups) {ws : List (String × ℝ)}
    (hw : ∀ w ∈ ws, w.1 ∈ L.namesOf "inputs") :
    ∃ (f : List ℝ → ℝ) (st : List Nat × List Nat), (∀ x : List ℝ, x.length = L.numDec → inputsPenalty L ws x = .ok (f x)) ∧
      inputsPenaltyStructure L = .ok st ∧ st.1 = st.2 ∧ st.1.length = L.numStages * (L.namesOf "inputs").length ∧
      (∀ i ∈ st.1, i < L.numDec) ∧
      ∀ x : List ℝ, x.length = L.numDec → ∃ g H, inputsPenaltyGrad L ws x = .ok g ∧ g.length = L.numDec ∧
        IsGradientAt L.numDec f x (fun j => g.getD j 0) ∧ inputsPenaltyHessian L ws x = .ok H ∧ H.length = st.1.length ∧
        IsHessianAt L.numDec f x (fun _ _ => True) (assemble st.1 st.2 H) := by
  obtain ⟨st, vals, s1, s2, s3, s4, s5⟩ := penalty_structure hL hi hw
  have hst : st.1 = st.2 ∧ st.1.length = L.numStages * (L.namesOf "inputs").length := by
    have e := s1
    unfold inputsPenaltyStructure at e
    obtain ⟨is, i1, i2, _, _⟩ := C05_group_at_stage hL hi (OCP.lookup_of_group hL hi) 0 (numStages_pos L)
    have i1' : L.groupIndicesAtStage "inputs" 0 = .ok is := i1
    simp only [i1', bind, Except.bind, createOffsetStructure] at e
    rw [if_neg (by have := numStages_pos L; omega)] at e
    simp only [Except.ok.injEq] at e
    subst e
    refine ⟨rfl, ?_⟩
    simp [List.length_flatMap, i2]
  refine ⟨penaltyFun L ws, st, fun x hx => penalty_eq hL hF hi hw hx, s1, hst.1, hst.2, s3.2.1, fun x hx => ?_⟩
  obtain ⟨g, g1, g2, g3⟩ := penaltyGrad_eq hL hF hi hw hx
  refine ⟨g, vals, g1, g2, fun j hj => ?_, s2 x, s4, ?_⟩
  · have := penalty_gradient (L := L) (ws := ws) hx j hj
    dsimp only at this ⊢
    rw [g3 j hj]
    exact this
  · exact (penalty_hessian (L := L) (ws := ws) hx _).congr hx (fun _ _ => rfl) (fun i j _ _ _ => s5 i j)

/-- **C67 (only the steering).** With the default weights the penalty is the mean square of the steering over the stages; it is never
negative and it is zero exactly when the steering is zero at every stage. -/
theorem C67_steer {L : Layout} (hL : L.Made) (hF : L.Fields) (hi : "inputs" ∈ L.groups) (hs : "steer" ∈ L.namesOf "inputs")
    {x : List ℝ} (hx : x.length = L.numDec) :
    ∃ v, inputsPenalty L defaultWeights x = .ok v ∧
      v = (∑ s ∈ range L.numStages, readAt L x "inputs" "steer" s ^ 2) / L.numStages ∧ 0 ≤ v ∧
      (v = 0 ↔ ∀ s, s < L.numStages → readAt L x "inputs" "steer" s = 0) := by
  have hw : ∀ w ∈ defaultWeights, w.1 ∈ L.namesOf "inputs" := by
    intro w hw
    simp only [defaultWeights, List.mem_singleton] at hw
    subst hw
    exact hs
  have e : meanSquares L defaultWeights x = (∑ s ∈ range L.numStages, readAt L x "inputs" "steer" s ^ 2) / L.numStages := by
    unfold meanSquares
    congr 1
    refine sum_congr rfl fun s _ => ?_
    have hnd := names_nodup hL hi
    generalize L.namesOf "inputs" = ns at hs hnd
    have wo : ∀ n, weightOf defaultWeights n = if n = "steer" then 1 else 0 := by
      intro n
      unfold weightOf defaultWeights
      simp only [List.reverse_singleton, List.lookup]
      by_cases h : n = "steer"
      · simp [h]
      · have : (n == "steer") = false := by simpa using h
        rw [this, if_neg h]
        rfl
    simp only [wo]
    induction ns with
    | nil => simp at hs
    | cons a l ih =>
      rw [List.nodup_cons] at hnd
      rw [List.map_cons, List.sum_cons]
      by_cases ha : a = "steer"
      · subst ha
        rw [if_pos rfl, one_mul, List.sum_eq_zero, add_zero]
        intro v hv
        obtain ⟨n, hn, rfl⟩ := List.mem_map.mp hv
        have : n ≠ "steer" := fun e => hnd.1 (e ▸ hn)
        rw [if_neg this, zero_mul]
      · rw [if_neg ha, zero_mul, zero_add]
        refine ih ?_ hnd.2
        rcases List.mem_cons.mp hs with h | h
        · exact absurd h.symm ha
        · exact h
  refine ⟨_, C67_value hL hF hi hw hx, e, ?_, ?_⟩
  · rw [e]
    exact div_nonneg (sum_nonneg fun _ _ => sq_nonneg _) (Nat.cast_nonneg _)
  · have hN : (L.numStages : ℝ) ≠ 0 := by
      have := numStages_pos L
      exact_mod_cast this.ne'
    rw [e, div_eq_zero_iff, or_iff_left hN, sum_eq_zero_iff_of_nonneg fun _ _ => sq_nonneg _]
    constructor
    · intro h s hs
      exact pow_eq_zero_iff (two_ne_zero) |>.mp (h s (mem_range.mpr hs))
    · intro h s hs
      rw [h s (mem_range.mp hs), zero_pow two_ne_zero]

/-- **C67 (unknown input).** A weight for a name that is not an input raises a ValueError, in every method. -/
theorem C67_unknown {L : Layout} (hL : L.Made) (hi : "inputs" ∈ L.groups) {ws : List (String × ℝ)} {w : String × ℝ} (hw : w ∈ ws)
    (hn : w.1 ∉ L.namesOf "inputs") (x : List ℝ) :
    inputsPenalty L ws x = .error .valueError ∧ inputsPenaltyGrad L ws x = .error .valueError ∧
      inputsPenaltyHessian L ws x = .error .valueError := by
  have facts := fun n => (C05_index_in_group L "inputs" n).2.2.1 (by decide) _ (OCP.lookup_of_group hL hi)
  have key : ∀ vec : List ℝ, ws.foldlM (weightStep L) vec = .error .valueError := by
    induction ws with
    | nil => simp at hw
    | cons a ws ih =>
      intro vec
      rw [List.foldlM_cons]
      unfold weightStep
      simp only [bind, Except.bind, pure, Except.pure]
      by_cases ha : a.1 ∈ L.namesOf "inputs"
      · rw [((facts a.1).1 _).mpr ⟨ha, rfl⟩]
        rcases List.mem_cons.mp hw with h | h
        · subst h
          exact absurd ha hn
        · exact ih h _
      · rw [(facts a.1).2 ha]
  have he := key (List.replicate (L.size "inputs") 0)
  refine ⟨?_, ?_, ?_⟩ <;>
    simp only [inputsPenalty, inputsPenaltyGrad, inputsPenaltyHessian, expandWeights, he, bind, Except.bind]

/-- A layout of three stages with two inputs. -/
def exL : Layout := ⟨[("states", ["time"]), ("inputs", ["throttle", "steer"]), ("states_dot", ["time"]), ("con_outputs", [])],
  ["states", "inputs", "states_dot", "con_outputs"], [], 2, 2⟩

/-- The hypotheses are met; only the steering (1, 2 and 3 at the three stages) counts. -/
example : exL.Made ∧ exL.Fields ∧ "inputs" ∈ exL.groups ∧ "steer" ∈ exL.namesOf "inputs" ∧
    inputsPenalty exL defaultWeights [0, 9, 1, 0, 0, 9, 2, 0, 0, 9, 3, 0] = .ok ((1 + 4 + 9) / 3) := by
  have h1 : exL.Made := ⟨by decide +kernel, by decide, by decide⟩
  have h2 : exL.Fields := ⟨by decide, by decide +kernel⟩
  have h3 : "inputs" ∈ exL.groups := by decide
  have h4 : "steer" ∈ exL.namesOf "inputs" := by decide +kernel
  have hx : ([0, 9, 1, 0, 0, 9, 2, 0, 0, 9, 3, 0] : List ℝ).length = exL.numDec := rfl
  refine ⟨h1, h2, h3, h4, ?_⟩
  obtain ⟨v, v1, v2, _⟩ := C67_steer h1 h2 h3 h4 hx
  have hN : exL.numStages = 3 := rfl
  have n1 : (exL.namesOf "inputs").getD 1 "" = "steer" := rfl
  have r : ∀ s, s < 3 → readAt exL [0, 9, 1, 0, 0, 9, 2, 0, 0, 9, 3, 0] "inputs" "steer" s
      = ([0, 9, 1, 0, 0, 9, 2, 0, 0, 9, 3, 0] : List ℝ).getD (inPos exL s 1) 0 := by
    intro s hs
    rw [← n1]
    exact readAt_inPos h1 h3 hx hs (by decide +kernel)
  rw [v1, v2, hN, sum_range_succ, sum_range_succ, sum_range_succ, sum_range_zero, r 0 (by omega), r 1 (by omega), r 2 (by omega)]
  have p0 : inPos exL 0 1 = 2 := rfl
  have p1 : inPos exL 1 1 = 6 := rfl
  have p2 : inPos exL 2 1 = 10 := rfl
  rw [p0, p1, p2]
  norm_num

end Lumos.Ocp
