import Verif.Aero.Model
import Mathlib.Analysis.SpecialFunctions.Trigonometric.DerivHyp
import Mathlib.Analysis.SpecialFunctions.ExpDeriv
import Mathlib.Analysis.Calculus.ContDiff.Operations
import Mathlib.Tactic.Linarith
import Mathlib.Tactic.Positivity
/-!
# C87: the data-driven aerodynamic models
-/

namespace Lumos.Aero

open Lumos Io Veh

/-! ## Specification -/

/-- Called with the three inputs, the model returns the three coefficients. -/
def Coefs (m : Mdl ℝ) (x c : Fin 3 → ℝ) : Prop :=
  ∃ r, m.eval { inputs := some [("front_ride_height", x 0), ("rear_ride_height", x 1), ("yaw", x 2)] } = .ok r ∧
    r.outputs = [("Cx", c 0), ("Cy", c 1), ("Cz", c 2)]

/-- A Gaussian process model with its points and their weights. -/
noncomputable def gpModel (points : List (Fin 3 → ℝ)) (alpha : Fin 3 → Fin points.length → ℝ) : Mdl ℝ :=
  .node (gpAero ⟨3, points⟩ ⟨points.length, [alpha 0, alpha 1, alpha 2]⟩) []

/-- A neural network model. -/
noncomputable def mlpModel (params : Dict Val) : Mdl ℝ := .node (mlpAero params) []

/-! ## Lists and sums -/

theorem zipWith_ofFn {n : Nat} (f : ℝ → ℝ → ℝ) (a b : Fin n → ℝ) : (List.ofFn a).zipWith f (List.ofFn b) = List.ofFn fun i => f (a i) (b i) := by
  apply List.ext_getElem
  · simp
  · intro i h1 h2
    simp

theorem map_eq_ofFn {A : Type} (l : List A) (f : A → ℝ) : l.map f = List.ofFn fun i : Fin l.length => f l[i] := by
  apply List.ext_getElem
  · simp
  · intro i h1 h2
    simp

theorem mul_ofFn (m : Mat) (v : Fin m.cols → ℝ) :
    m.mul (List.ofFn v) = .ok (List.ofFn fun i : Fin m.rows.length => ∑ j, m.rows[i] j * v j) := by
  unfold Mat.mul
  rw [if_pos (by simp), map_eq_ofFn]
  congr 2
  funext i
  rw [zipWith_ofFn, List.sum_ofFn]

theorem list_ofFn (l : List ℝ) : l = List.ofFn fun i : Fin l.length => l[i] := by
  apply List.ext_getElem
  · simp
  · intro i h1 h2
    simp

theorem mul_inv {m : Mat} {v w : List ℝ} (h : m.mul v = .ok w) : v.length = m.cols := by
  unfold Mat.mul at h
  split at h
  · assumption
  · cases h

/-! ## Evaluation -/

theorem finish_eq (l : List ℝ) (r : Ret ℝ) : finish l = .ok r ↔ ∃ a b c t, l = a :: b :: c :: t ∧ r = { outputs := [("Cx", a), ("Cy", b), ("Cz", c)] } := by
  constructor
  · intro h
    rcases l with _ | ⟨a, _ | ⟨b, _ | ⟨c, t⟩⟩⟩
    · cases h
    · cases h
    · cases h
    · refine ⟨a, b, c, t, rfl, ?_⟩
      have : finish (a :: b :: c :: t) = .ok { outputs := [("Cx", a), ("Cy", b), ("Cz", c)] } := rfl
      rw [this] at h
      cases h
      rfl
  · rintro ⟨a, b, c, t, rfl, rfl⟩
    rfl

/-- Both models: a function of the three inputs, and the first three entries of its result. -/
theorem eval_eq {cls : Cls ℝ} (f : List ℝ → Py (List ℝ)) (hf : cls.forward = fun kw => body do
    let inputs ← arg kw.inputs
    let x ← lift (aeroNames.makeVector "inputs" inputs)
    let coeff ← lift (f x)
    lift (finish coeff)) (a b c : ℝ) :
    Mdl.eval (.node cls []) { inputs := some [("front_ride_height", a), ("rear_ride_height", b), ("yaw", c)] } = (f [a, b, c]).bind finish := by
  unfold Mdl.eval
  rw [hf]
  show Mdl.evalProg _ _ _ _ ((lift (f [a, b, c]) : Stmt (List ℝ)) fun coeff => lift (finish coeff) .done) = _
  rcases f [a, b, c] with er | l
  · rfl
  · show Mdl.evalProg _ _ _ _ (lift (finish l) .done) = finish l
    rcases finish l with er | r <;> rfl

theorem eval_iff {cls : Cls ℝ} (f : List ℝ → Py (List ℝ)) (hf : cls.forward = fun kw => body do
    let inputs ← arg kw.inputs
    let x ← lift (aeroNames.makeVector "inputs" inputs)
    let coeff ← lift (f x)
    lift (finish coeff)) (x c : Fin 3 → ℝ) : Coefs (.node cls []) x c ↔ ∃ t, f [x 0, x 1, x 2] = .ok (c 0 :: c 1 :: c 2 :: t) := by
  unfold Coefs
  rw [eval_eq f hf]
  constructor
  · rintro ⟨r, h1, h2⟩
    rcases hl : f [x 0, x 1, x 2] with er | l
    · rw [hl] at h1; cases h1
    · rw [hl] at h1
      obtain ⟨a, b, d, t, rfl, rfl⟩ := (finish_eq l r).mp h1
      simp only [List.cons.injEq, Prod.mk.injEq, true_and, and_true] at h2
      obtain ⟨rfl, rfl, rfl⟩ := h2
      exact ⟨t, rfl⟩
  · rintro ⟨t, h⟩
    rw [h]
    exact ⟨_, rfl, rfl⟩

theorem gp_iff (p a : Mat) (x c : Fin 3 → ℝ) : Coefs (.node (gpAero p a) []) x c ↔ ∃ t, gp [x 0, x 1, x 2] p a = .ok (c 0 :: c 1 :: c 2 :: t) :=
  eval_iff (fun x => gp x p a) rfl x c

theorem mlp_iff (params : Dict Val) (x c : Fin 3 → ℝ) :
    Coefs (mlpModel params) x c ↔ ∃ t, mlp [x 0, x 1, x 2] (dictToList params) = .ok (c 0 :: c 1 :: c 2 :: t) :=
  eval_iff (fun x => mlp x (dictToList params)) rfl x c

theorem vec3 (x : Fin 3 → ℝ) : [x 0, x 1, x 2] = List.ofFn x := rfl

/-! ## The Gaussian process -/

/-- **C87** (Gaussian process). The coefficients are the sums, over the points, of the weight times the exponential of minus the squared distance. -/
theorem C87_gp_value (points : List (Fin 3 → ℝ)) (alpha : Fin 3 → Fin points.length → ℝ) (x c : Fin 3 → ℝ) :
    Coefs (gpModel points alpha) x c ↔ ∀ j, c j = ∑ i, alpha j i * Real.exp (-∑ d, (points[i] d - x d) ^ 2) := by
  unfold gpModel
  rw [gp_iff, vec3]
  have hk : kernel ⟨3, points⟩ (List.ofFn x) = .ok (List.ofFn fun i : Fin points.length => Real.exp (-∑ d, (points[i] d - x d) ^ 2)) := by
    unfold kernel
    rw [if_pos (Or.inl (by simp)), map_eq_ofFn]
    congr 2
  unfold gp
  rw [hk]
  show (∃ t, Mat.mul ⟨points.length, _⟩ _ = _) ↔ _
  rw [mul_ofFn ⟨points.length, [alpha 0, alpha 1, alpha 2]⟩]
  simp only [Except.ok.injEq]
  constructor
  · rintro ⟨t, h⟩ j
    have h' := congrArg (fun l => l[j.val]?) h
    fin_cases j
    · simpa using h'.symm
    · simpa using h'.symm
    · simpa using h'.symm
  · intro h
    refine ⟨[], ?_⟩
    rw [h 0, h 1, h 2]
    rfl

/-- **C87** (bound). A coefficient is at most the sum of the weights' absolute values, whatever the inputs. -/
theorem C87_gp_bound {points : List (Fin 3 → ℝ)} {alpha : Fin 3 → Fin points.length → ℝ} {x c : Fin 3 → ℝ} (h : Coefs (gpModel points alpha) x c) (j : Fin 3) :
    |c j| ≤ ∑ i, |alpha j i| := by
  rw [(C87_gp_value points alpha x c).mp h j]
  refine (Finset.abs_sum_le_sum_abs _ _).trans (Finset.sum_le_sum fun i _ => ?_)
  rw [abs_mul, abs_of_pos (Real.exp_pos _)]
  refine mul_le_of_le_one_right (abs_nonneg _) (Real.exp_le_one_iff.mpr (neg_nonpos.mpr ?_))
  positivity

/-- **C87** (away from the points). Where every point is at least the distance `R` away, the coefficients are at most `exp (- R²)` times the sum of the
weights: outside its data, the model says that there is no air. -/
theorem C87_gp_far {points : List (Fin 3 → ℝ)} {alpha : Fin 3 → Fin points.length → ℝ} {x c : Fin 3 → ℝ} (h : Coefs (gpModel points alpha) x c) {R : ℝ}
    (hR : ∀ p ∈ points, R ^ 2 ≤ ∑ d, (p d - x d) ^ 2) (j : Fin 3) : |c j| ≤ Real.exp (-R ^ 2) * ∑ i, |alpha j i| := by
  rw [(C87_gp_value points alpha x c).mp h j, Finset.mul_sum]
  refine (Finset.abs_sum_le_sum_abs _ _).trans (Finset.sum_le_sum fun i _ => ?_)
  rw [abs_mul, abs_of_pos (Real.exp_pos _), mul_comm]
  exact mul_le_mul_of_nonneg_right (Real.exp_le_exp.mpr (neg_le_neg (hR _ (List.getElem_mem _)))) (abs_nonneg _)

/-- **C87** (smooth). The model returns for all inputs, and the coefficients are infinitely differentiable functions of them. -/
theorem C87_gp_smooth (points : List (Fin 3 → ℝ)) (alpha : Fin 3 → Fin points.length → ℝ) :
    ∃ f : (Fin 3 → ℝ) → Fin 3 → ℝ, ContDiff ℝ ⊤ f ∧ ∀ x, Coefs (gpModel points alpha) x (f x) := by
  refine ⟨fun x j => ∑ i, alpha j i * Real.exp (-∑ d, (points[i] d - x d) ^ 2), ?_, fun x => (C87_gp_value _ _ _ _).mpr fun j => rfl⟩
  rw [contDiff_pi]
  intro j
  refine ContDiff.sum fun i _ => contDiff_const.mul (Real.contDiff_exp.comp (ContDiff.neg (ContDiff.sum fun d _ => ?_)))
  exact (contDiff_const.sub (contDiff_apply ℝ ℝ d)).pow 2

/-- **C87** (order of the points). The order of the points does not matter, as long as the columns of the weights are in the same order. -/
theorem C87_gp_order {points points' : List (Fin 3 → ℝ)} {alpha : Fin 3 → Fin points.length → ℝ} {alpha' : Fin 3 → Fin points'.length → ℝ}
    (s : Fin points.length ≃ Fin points'.length) (hp : ∀ i, points'[s i] = points[i]) (ha : ∀ j i, alpha' j (s i) = alpha j i) (x c : Fin 3 → ℝ) :
    Coefs (gpModel points alpha) x c ↔ Coefs (gpModel points' alpha') x c := by
  rw [C87_gp_value, C87_gp_value]
  refine forall_congr' fun j => ?_
  rw [← Equiv.sum_comp s]
  simp only [hp, ha]

/-- **C87** (any coefficients). At any inputs, some parameters return any coefficients. -/
theorem C87_gp_any (x c : Fin 3 → ℝ) : ∃ points alpha, Coefs (gpModel points alpha) x c := by
  refine ⟨[x], fun j _ => c j, (C87_gp_value _ _ _ _).mpr fun j => ?_⟩
  simp

/-! ## The neural network -/

theorem contDiff_tanh : ContDiff ℝ ⊤ Real.tanh := by
  have : Real.tanh = fun x => Real.sinh x / Real.cosh x := funext Real.tanh_eq_sinh_div_cosh
  rw [this]
  exact Real.contDiff_sinh.div Real.contDiff_cosh fun x => (Real.cosh_pos x).ne'

theorem mlp_range {ws : List Val} (hw : ws ≠ []) {x y : List ℝ} (h : mlp x ws = .ok y) : ∀ c ∈ y, |c| < 1 := by
  induction ws generalizing x with
  | nil => exact absurd rfl hw
  | cons w ws ih =>
    unfold mlp at h
    rcases hm : w.mul x with e | z
    · rw [hm] at h; cases h
    · rw [hm] at h
      by_cases hws : ws = []
      · subst hws
        cases h
        intro c hc
        obtain ⟨a, -, rfl⟩ := List.mem_map.mp hc
        exact Real.abs_tanh_lt_one a
      · exact ih hws h

/-- **C87** (range of the network). With at least one layer of weights, every coefficient is strictly between -1 and 1, whatever the weights and the inputs:
the last layer, too, goes through the hyperbolic tangent. -/
theorem C87_mlp_range {params : Dict Val} (hw : dictToList params ≠ []) {x c : Fin 3 → ℝ} (h : Coefs (mlpModel params) x c) (j : Fin 3) : |c j| < 1 := by
  obtain ⟨t, e⟩ := (mlp_iff _ _ _).mp h
  apply mlp_range hw e
  fin_cases j <;> simp

/-- **C87** (the default downforce is out of reach, finding). No weights make the network return the lift coefficient 1.9 of the constant model. -/
theorem C87_mlp_out_of_reach {params : Dict Val} (hw : dictToList params ≠ []) {x c : Fin 3 → ℝ} (h : Coefs (mlpModel params) x c) : c 2 ≠ 1.9 := by
  intro e
  have := C87_mlp_range hw h 2
  rw [e, abs_of_pos (by norm_num)] at this
  norm_num at this

/-- The network, as a function of vectors. -/
theorem mlp_fun (ws : List Val) : ∀ {n k : Nat} {v₀ : Fin n → ℝ} {y₀ : List ℝ}, mlp (List.ofFn v₀) ws = .ok y₀ → y₀.length = k →
    ∃ f : (Fin n → ℝ) → Fin k → ℝ, ContDiff ℝ ⊤ f ∧ (∀ v, mlp (List.ofFn v) ws = .ok (List.ofFn (f v))) ∧ (∀ v, f (-v) = -f v) := by
  induction ws with
  | nil =>
    intro n k v₀ y₀ h hk
    cases h
    simp only [List.length_ofFn] at hk
    subst hk
    exact ⟨id, contDiff_id, fun v => rfl, fun v => rfl⟩
  | cons w ws ih =>
    intro n k v₀ y₀ h hk
    rcases w with a | m
    · cases h
    · obtain ⟨cols, rows⟩ := m
      have h1 : (Mat.mul ⟨cols, rows⟩ (List.ofFn v₀)).bind (fun y => mlp (y.map Real.tanh) ws) = .ok y₀ := h
      rcases hm : Mat.mul ⟨cols, rows⟩ (List.ofFn v₀) with e | z
      · rw [hm] at h1; cases h1
      · have hl := mul_inv hm
        simp only [List.length_ofFn] at hl
        subst hl
        rw [mul_ofFn ⟨n, rows⟩] at h1
        have h2 : mlp (List.ofFn fun i : Fin rows.length => Real.tanh (∑ j, rows[i] j * v₀ j)) ws = .ok y₀ := by
          rw [← h1]
          show _ = mlp (List.map Real.tanh (List.ofFn _)) ws
          rw [List.map_ofFn]
          rfl
        obtain ⟨g, hg, hg', ho⟩ := ih h2 hk
        refine ⟨fun v => g fun i => Real.tanh (∑ j, rows[i] j * v j), ?_, ?_, ?_⟩
        · refine hg.comp (contDiff_pi.mpr fun i => contDiff_tanh.comp (ContDiff.sum fun j _ => contDiff_const.mul (contDiff_apply ℝ ℝ j)))
        · intro v
          show (Mat.mul ⟨n, rows⟩ (List.ofFn v)).bind (fun y => mlp (y.map Real.tanh) ws) = _
          rw [mul_ofFn ⟨n, rows⟩]
          show mlp (List.map Real.tanh (List.ofFn _)) ws = _
          rw [List.map_ofFn]
          exact hg' _
        · intro v
          rw [← ho]
          show g _ = g _
          congr 1
          funext i
          rw [Pi.neg_apply, ← Real.tanh_neg, ← Finset.sum_neg_distrib]
          simp

/-- **C87** (the network is smooth). If the network returns for one input, it returns for all, and the coefficients are infinitely differentiable, odd functions
of the inputs: with all inputs reversed, all coefficients are reversed, and with all inputs zero, so are the coefficients. -/
theorem C87_mlp_smooth {params : Dict Val} {x₀ c₀ : Fin 3 → ℝ} (h : Coefs (mlpModel params) x₀ c₀) :
    ∃ f : (Fin 3 → ℝ) → Fin 3 → ℝ, ContDiff ℝ ⊤ f ∧ (∀ x, Coefs (mlpModel params) x (f x)) ∧ (∀ x, f (-x) = -f x) ∧ f 0 = 0 := by
  obtain ⟨t, e⟩ := (mlp_iff _ _ _).mp h
  rw [vec3] at e
  obtain ⟨f, h1, h2, h3⟩ := mlp_fun (k := t.length + 3) _ e (by simp)
  have hlt : ∀ j : Fin 3, j.val < t.length + 3 := fun j => by have := j.isLt; omega
  refine ⟨fun x j => f x ⟨j, hlt j⟩, ?_, fun x => (mlp_iff _ _ _).mpr ?_, fun x => ?_, ?_⟩
  · exact contDiff_pi.mpr fun j => (contDiff_pi.mp h1) _
  · rw [vec3, h2]
    refine ⟨List.ofFn fun i : Fin t.length => f x ⟨i + 3, by have := i.isLt; omega⟩, ?_⟩
    congr 1
    apply List.ext_getElem
    · simp
    · intro i g1 g2
      rcases i with _ | _ | _ | i
      · simp
      · simp
      · simp only [List.getElem_ofFn, List.getElem_cons_succ, List.getElem_cons_zero]
        rfl
      · simp
  · funext j
    simp only [h3]
    rfl
  · funext j
    have := congrFun (h3 0) ⟨j, hlt j⟩
    simp only [neg_zero, Pi.neg_apply] at this
    show f 0 ⟨j, hlt j⟩ = 0
    linarith

/-- **C87** (still air, finding). Whatever the weights, the coefficients vanish at zero inputs: there is no bias. -/
theorem C87_mlp_rest {params : Dict Val} {c : Fin 3 → ℝ} (h : Coefs (mlpModel params) 0 c) : c = 0 := by
  obtain ⟨f, -, h1, -, h2⟩ := C87_mlp_smooth h
  obtain ⟨r, e, o⟩ := h
  obtain ⟨r', e', o'⟩ := h1 0
  rw [e] at e'
  cases e'
  rw [o, h2] at o'
  simp only [List.cons.injEq, Prod.mk.injEq, true_and, and_true] at o'
  funext j
  fin_cases j
  · exact o'.1
  · exact o'.2.1
  · exact o'.2.2

/-! ## The dictionary of weights -/

theorem dictToList_set_other (d : Dict Val) (k : String) (v : Val) (hk : isLayer k = false) :
    dictToList (d.set k v) = dictToList d := by
  unfold dictToList
  induction d with
  | nil => simp [Dict.set, hk]
  | cons p d ih =>
    obtain ⟨a, b⟩ := p
    unfold Dict.set
    by_cases h : a = k
    · subst h
      rw [if_pos rfl, List.filter_cons, List.filter_cons]
      simp [hk]
    · rw [if_neg h, List.filter_cons, List.filter_cons]
      split
      · simp only [List.map_cons, ih]
      · exact ih

theorem layer_inj {i j : Nat} (h : "weights_layer_" ++ toString i = "weights_layer_" ++ toString j) : i = j := by
  have h1 := congrArg String.toList h
  simp only [String.toList_append, List.append_cancel_left_eq] at h1
  have h2 : Nat.toDigits 10 i = Nat.toDigits 10 j := by
    rw [← Nat.toList_repr, ← Nat.toList_repr]
    exact h1
  rw [← Nat.ofDigitChars_ten_toDigits (n := i), h2, Nat.ofDigitChars_ten_toDigits]

theorem layer_prefix (i : Nat) : isLayer ("weights_layer_" ++ toString i) = true := by
  unfold isLayer
  rw [String.toList_append, List.isPrefixOf_iff_prefix]
  exact ⟨['_'] ++ (toString i).toList, rfl⟩

theorem keys_update_list {α : Type} (d : Dict α) (l : List (String × α)) (hl : (l.map Prod.fst).Nodup) (hd : ∀ k ∈ l.map Prod.fst, k ∉ d.keys) :
    l.foldl (fun (d : Dict α) (kv : String × α) => d.set kv.1 kv.2) d = d ++ l := by
  induction l generalizing d with
  | nil => simp
  | cons p l ih =>
    rw [List.foldl_cons, Dict.set_new d p.1 p.2 (hd _ (by simp)), ih]
    · simp
    · exact (List.nodup_cons.mp hl).2
    · intro k hk
      simp only [Dict.keys, List.map_append, List.map_cons, List.map_nil, List.mem_append, List.mem_cons, List.not_mem_nil, or_false, not_or]
      refine ⟨hd k (by simp only [List.map_cons, List.mem_cons]; exact Or.inr hk), ?_⟩
      rintro rfl
      exact (List.nodup_cons.mp hl).1 hk

theorem layers_nodup (ws : List Val) : ((ws.zipIdx.map fun w => ("weights_layer_" ++ toString w.2, w.1)).map Prod.fst).Nodup := by
  rw [List.map_map, List.nodup_iff_injective_get]
  intro a b hab
  simp only [List.get_eq_getElem, List.getElem_map, Function.comp, List.getElem_zipIdx] at hab
  have := layer_inj hab
  exact Fin.ext (by omega)

theorem listToDict_eq (ws : List Val) : listToDict ws = ws.zipIdx.map fun w => ("weights_layer_" ++ toString w.2, w.1) := by
  unfold listToDict
  rw [keys_update_list _ _ (layers_nodup ws) (by simp [Dict.keys]), List.nil_append]

/-- **C87** (the layers are found again). The parameters made from a list of layers, however many, give the layers back, in their order. -/
theorem C87_mlp_layers (ws : List Val) : dictToList (mlpParams ws) = ws := by
  unfold mlpParams Dict.update
  rw [listToDict_eq, keys_update_list]
  · unfold dictToList
    rw [List.filter_append, List.filter_cons, if_neg (by decide), List.filter_nil, List.nil_append, List.filter_eq_self.mpr]
    · rw [List.map_map]
      show ws.zipIdx.map (fun w => w.1) = ws
      simp [List.zipIdx_map_fst]
    · intro a ha
      obtain ⟨w, -, rfl⟩ := List.mem_map.mp ha
      exact layer_prefix w.2
  · exact layers_nodup ws
  · intro k hk
    obtain ⟨a, ha, rfl⟩ := List.mem_map.mp hk
    obtain ⟨w, -, rfl⟩ := List.mem_map.mp ha
    simp only [Dict.keys, List.map_cons, List.map_nil, List.mem_cons, List.not_mem_nil, or_false]
    intro e
    have := layer_prefix w.2
    rw [e] at this
    exact absurd this (by decide)

/-- **C87** (the air density is not used). Neither the air density nor any other parameter without the prefix of the layers matters. -/
theorem C87_mlp_other (params : Dict Val) (k : String) (v : Val) (hk : isLayer k = false) (x c : Fin 3 → ℝ) :
    Coefs (mlpModel (params.set k v)) x c ↔ Coefs (mlpModel params) x c := by
  rw [mlp_iff, mlp_iff, dictToList_set_other _ _ _ hk]

/-- Layers of fitting sizes: rows and columns of each. -/
def Shaped : List Val → List (Nat × Nat) → Prop
  | [], [] => True
  | .mat m :: ws, s :: ss => m.rows.length = s.1 ∧ m.cols = s.2 ∧ Shaped ws ss
  | _, _ => False

/-- Sizes that lead from vectors of length `n` to vectors of length `k`. -/
def Chain : Nat → List (Nat × Nat) → Nat → Prop
  | n, [], k => n = k
  | n, s :: ss, k => s.2 = n ∧ Chain s.1 ss k

theorem mlp_ok {ws : List Val} {ss : List (Nat × Nat)} {n k : Nat} (hs : Shaped ws ss) (hc : Chain n ss k) (v : List ℝ) (hv : v.length = n) :
    ∃ y, mlp v ws = .ok y ∧ y.length = k := by
  induction ws generalizing ss n v with
  | nil =>
    cases ss with
    | nil => exact ⟨v, rfl, hv.trans hc⟩
    | cons s ss => exact hs.elim
  | cons w ws ih =>
    cases ss with
    | nil => rcases w with _ | _ <;> exact hs.elim
    | cons s ss =>
      rcases w with a | m
      · exact hs.elim
      · obtain ⟨h1, h2, h3⟩ := hs
        obtain ⟨c1, c2⟩ := hc
        have e : m.mul v = .ok (m.rows.map fun r => ((List.ofFn r).zipWith (· * ·) v).sum) := by
          unfold Mat.mul
          rw [if_pos (by rw [hv, h2, c1])]
        obtain ⟨y, e1, e2⟩ := ih h3 c2 ((m.rows.map fun r => ((List.ofFn r).zipWith (· * ·) v).sum).map Real.tanh) (by simp [h1])
        refine ⟨y, ?_, e2⟩
        show (m.mul v).bind _ = _
        rw [e]
        exact e1

theorem chain_hidden (dim : Nat) : ∀ (l n : Nat), Chain n (List.zipWith (fun i o => (o, i)) (n :: List.replicate l dim) (List.replicate (l + 1) dim) ++ [(3, dim)]) 3
  | 0, n => ⟨rfl, rfl, rfl⟩
  | l + 1, n => by
    rw [List.replicate_succ (n := l + 1), List.zipWith_cons_cons, List.replicate_succ (n := l)]
    exact ⟨rfl, chain_hidden dim l dim⟩

/-- **C87** (the default network runs). With the default sizes, for every number of hidden layers from one and every width, and any numbers in the matrices, the
network returns for all inputs. -/
theorem C87_mlp_default (layers dim : Nat) (hl : 0 < layers) : ∃ ss, defaultShapes layers dim = .ok ss ∧
    ∀ ws, Shaped ws ss → ∀ x, ∃ c, Coefs (mlpModel (mlpParams ws)) x c := by
  obtain ⟨l, rfl⟩ : ∃ l, layers = l + 1 := ⟨layers - 1, by omega⟩
  refine ⟨List.zipWith (fun i o => (o, i)) (3 :: List.replicate l dim) (List.replicate (l + 1) dim) ++ [(3, dim)], ?_, fun ws hw x => ?_⟩
  · unfold defaultShapes
    simp only
    rw [List.replicate_succ', List.dropLast_concat, List.getLast?_concat, ← List.replicate_succ']
  · obtain ⟨y, e, hy⟩ := mlp_ok hw (chain_hidden dim l 3) (List.ofFn x) (by simp)
    rcases y with _ | ⟨a, _ | ⟨b, _ | ⟨c, _ | _⟩⟩⟩
    · simp at hy
    · simp at hy
    · simp at hy
    · refine ⟨![a, b, c], (mlp_iff _ _ _).mpr ⟨[], ?_⟩⟩
      rw [C87_mlp_layers, vec3, e]
      rfl
    · simp at hy

/-- **C87** (sizes). Without a hidden layer, the default parameters raise IndexError. -/
theorem C87_mlp_no_hidden (dim : Nat) : defaultShapes 0 dim = .error .indexError := rfl

/-- **C87** (the order of the dictionary, finding). The layers are applied in the order of the dictionary, not of the numbers in their names: the same two named
layers in the other order give a model that raises for all inputs. -/
theorem C87_mlp_order : ∃ (a b : Val), (∀ x, ∃ c, Coefs (mlpModel [("weights_layer_0", a), ("weights_layer_1", b)]) x c) ∧
    ∀ x c, ¬Coefs (mlpModel [("weights_layer_1", b), ("weights_layer_0", a)]) x c := by
  refine ⟨.mat ⟨3, [fun _ => 0]⟩, .mat ⟨1, [fun _ => 0, fun _ => 0, fun _ => 0]⟩, fun x => ?_, fun x c h => ?_⟩
  · have h : Shaped [.mat ⟨3, [fun _ => 0]⟩, .mat ⟨1, [fun _ => 0, fun _ => 0, fun _ => 0]⟩] [(1, 3), (3, 1)] := ⟨rfl, rfl, rfl, rfl, trivial⟩
    obtain ⟨y, e, hy⟩ := mlp_ok h (n := 3) (k := 3) ⟨rfl, rfl, rfl⟩ (List.ofFn x) (by simp)
    rcases y with _ | ⟨a, _ | ⟨b, _ | ⟨c, _ | _⟩⟩⟩
    · simp at hy
    · simp at hy
    · simp at hy
    · refine ⟨![a, b, c], (mlp_iff _ _ _).mpr ⟨[], ?_⟩⟩
      rw [vec3]
      exact e
    · simp at hy
  · obtain ⟨t, e⟩ := (mlp_iff _ _ _).mp h
    have e' : mlp [x 0, x 1, x 2] (dictToList [("weights_layer_1", .mat ⟨1, [fun _ => 0, fun _ => 0, fun _ => 0]⟩), ("weights_layer_0", .mat ⟨3, [fun _ => 0]⟩)]) =
        (Mat.mul ⟨1, [fun _ => 0, fun _ => 0, fun _ => 0]⟩ [x 0, x 1, x 2]).bind fun y => mlp (y.map Real.tanh) [.mat ⟨3, [fun _ => 0]⟩] := rfl
    rw [e'] at e
    unfold Mat.mul at e
    rw [if_neg (by simp)] at e
    cases e

end Lumos.Aero
