import Verif.Lap.Problem
import Verif.Io.Vectors
/-!
# C70: the initial guess of a lap time simulation
-/

namespace Lumos.LapSim

open Lumos DecVar DecVar.Layout Bounds Ocp Track Io NLP

/-! ## Specification -/

/-- The constant part of the guess for the states: 50 m/s straight ahead on the centre line, all wheels rolling without slip for
wheels of 0.33 m. -/
noncomputable def guessState (n : String) : ℝ :=
  if n = "vx" then 50
  else if n ∈ ["wheel_speed_fl", "wheel_speed_fr", "wheel_speed_rl", "wheel_speed_rr"] then 50 / 0.33
  else 0

/-- What the guess needs: the layout is that of the model, a vehicle with some of the known states and inputs, on a loaded track. -/
structure Guessable (l : Lap) (t : RaceTrack) : Prop where
  good : l.S.c.Good
  stateNames : l.S.c.o.L.namesOf "states" = l.S.c.M.states
  inputNames : l.S.c.o.L.namesOf "inputs" = l.S.c.M.inputs
  noGlobals : l.S.c.o.L.globals = []
  time : "time" ∈ l.S.c.M.states
  states : ∀ n ∈ l.S.c.M.states, n ∈ Lap.constStates.keys
  curvature : "track_curvature" ∈ l.S.c.M.inputs
  heading : "track_heading" ∈ l.S.c.M.inputs
  inputs : ∀ n ∈ l.S.c.M.inputs, n ∈ Lap.constInputs.keys
  track : l.track = some t
  loaded : Loaded t

/-! ## Pieces -/

theorem timeGuess_at {mesh : List ℝ} {s : Nat} (hs : s < mesh.length) :
    (Lap.timeGuess mesh)[s]? = some ((at_ mesh s - at_ mesh 0) / 50) := by
  unfold Lap.timeGuess
  rw [List.getElem?_eq_getElem (by rw [length_arr]; omega), getElem_arr]
  congr 1
  unfold cumsum0 diff
  rw [← Finset.sum_div, Finset.sum_range_sub]

theorem timeGuess_length {mesh : List ℝ} (h : 0 < mesh.length) : (Lap.timeGuess mesh).length = mesh.length := by
  unfold Lap.timeGuess
  rw [length_arr]; omega

theorem setColumn_ok {a : List (List ℝ)} {i : Nat} {v : List ℝ} (h : v.length = a.length) :
    ∃ a', Lap.setColumn a i v = .ok a' ∧ a'.length = a.length ∧
      ∀ (s : Nat) (r : List ℝ) (x : ℝ), a[s]? = some r → v[s]? = some x → a'[s]? = some (r.set i x) := by
  refine ⟨_, by unfold Lap.setColumn; rw [if_pos h], by simp [h], ?_⟩
  intro s r x hr hx
  simp [List.getElem?_zipWith, hr, hx]

theorem lookup_constStates {n : String} (h : n ∈ Lap.constStates.keys) (ht : n ≠ "time") : Lap.constStates.lookup n = some (guessState n) := by
  simp only [Lap.constStates, Dict.keys, List.map_cons, List.map_nil, List.mem_cons, List.not_mem_nil, or_false] at h
  rcases h with rfl | rfl | rfl | rfl | rfl | rfl | rfl | rfl | rfl | rfl <;>
    simp [Lap.constStates, guessState, List.lookup] at ht ⊢

theorem lookup_constInputs {n : String} (h : n ∈ Lap.constInputs.keys) : Lap.constInputs.lookup n = some 0 := by
  simp only [Lap.constInputs, Dict.keys, List.map_cons, List.map_nil, List.mem_cons, List.not_mem_nil, or_false] at h
  rcases h with rfl | rfl | rfl | rfl | rfl | rfl | rfl <;> simp [Lap.constInputs, List.lookup]

theorem passable_states : Passable Lap.constStates := by
  simp [Passable, Lap.constStates, Dict.keys]

theorem passable_inputs : Passable Lap.constInputs := by
  simp [Passable, Lap.constInputs, Dict.keys]

theorem lookup_names {L : Layout} (hL : L.Made) {g : String} (hg : g ∈ L.groups) : L.names.lookup g = some (L.namesOf g) := by
  obtain ⟨ns, h⟩ := (make_ok hL.made).2.1 g hg
  rw [h]
  simp [namesOf, h]

theorem set_value {ns : List String} {d : Dict ℝ} {v : List ℝ} (h : Lists ns d v) {n m : String} (hn : n ∈ ns) (y : ℝ) :
    (v.set (ns.idxOf m) y)[ns.idxOf n]? = if n = m then some y else d.lookup n := by
  obtain ⟨a, h1, h2⟩ := h.value hn
  have hlt : ns.idxOf n < v.length := by rw [h.1]; exact List.idxOf_lt_length_of_mem hn
  rw [List.getElem?_set]
  by_cases e : n = m
  · subst e
    simp [hlt]
  · rw [if_neg e, if_neg, h1, h2]
    intro he
    exact e (List.idxOf_inj hn |>.mp he.symm)

theorem getD_map_mul {m : List ℝ} {c : ℝ} (s : Nat) : at_ (m.map (· * c)) s = m.getD s 0 * c := by
  unfold at_
  by_cases h : s < m.length
  · simp [h]
  · simp [h]

/-- **C70**: the guess exists; at every stage the time is the distance from the first stage at 50 m/s, the other states are those of
`guessState`, the inputs are zero but for the curvature and heading of the track, and the state derivatives and outputs are those of
the model there: the guess satisfies the dynamics and outputs of the discretised problem on the mesh of the track. -/
theorem C70_guess {l : Lap} {t : RaceTrack} (h : Guessable l t) :
    ∃ x, l.initGuess = .ok x ∧ x.length = l.S.c.o.L.numDec ∧
    ∀ s, s < l.S.c.o.L.numStages →
      readAt l.S.c.o.L x "states" "time" s = (l.S.c.mesh.getD s 0 - l.S.c.mesh.getD 0 0) * t.totalDistance / 50 ∧
      (∀ n ∈ l.S.c.M.states, n ≠ "time" → readAt l.S.c.o.L x "states" n s = guessState n) ∧
      t.curvatureAt (l.S.c.mesh.getD s 0 * t.totalDistance) = .ok (readAt l.S.c.o.L x "inputs" "track_curvature" s) ∧
      t.headingAt (l.S.c.mesh.getD s 0 * t.totalDistance) = .ok (readAt l.S.c.o.L x "inputs" "track_heading" s) ∧
      (∀ n ∈ l.S.c.M.inputs, n ≠ "track_curvature" → n ≠ "track_heading" → readAt l.S.c.o.L x "inputs" n s = 0) ∧
      l.S.c.M.f (readGroup l.S.c.o.L x "states" s) (readGroup l.S.c.o.L x "inputs" s) (l.S.c.mesh.getD s 0 * t.totalDistance)
        = readGroup l.S.c.o.L x "states_dot" s ∧
      l.S.c.M.h (readGroup l.S.c.o.L x "states" s) (readGroup l.S.c.o.L x "inputs" s) (l.S.c.mesh.getD s 0 * t.totalDistance)
        = readGroup l.S.c.o.L x "con_outputs" s := by
  have hL := h.good.ocp.made
  have hF := h.good.ocp.fields
  have hN : 0 < l.S.c.o.L.numStages := numStages_pos _
  have hmesh : (distanceMesh l.S t).length = l.S.c.o.L.numStages := by simp [distanceMesh, h.good.stage.points]
  have gmem : ∀ g ∈ ["states", "inputs", "states_dot", "con_outputs"], g ∈ l.S.c.o.L.groups := by rw [h.good.groups]; exact fun _ h => h
  obtain ⟨sv, s1, s2⟩ := makeVector_ok (nm := Lap.namesOf l.S.c.M) (g := "states") (ns := l.S.c.M.states) rfl passable_states h.states
  obtain ⟨iv, i1, i2⟩ := makeVector_ok (nm := Lap.namesOf l.S.c.M) (g := "inputs") (ns := l.S.c.M.inputs) rfl passable_inputs h.inputs
  have iT : l.S.c.o.L.indexInGroup "states" "time" = .ok (l.S.c.M.states.idxOf "time") := by
    have hl := lookup_names hL (gmem "states" (by simp))
    rw [h.stateNames] at hl
    exact (((C05_index_in_group l.S.c.o.L "states" "time").2.2.1 (by simp) _ hl).1 _).mpr ⟨h.time, rfl⟩
  have iC : (Lap.namesOf l.S.c.M).varIndex "inputs" "track_curvature" = .ok (l.S.c.M.inputs.idxOf "track_curvature") := by
    have hc := h.curvature
    simp [Names.varIndex, Names.group, Lap.namesOf, bind, Except.bind, hc]
  have iH : (Lap.namesOf l.S.c.M).varIndex "inputs" "track_heading" = .ok (l.S.c.M.inputs.idxOf "track_heading") := by
    have hc := h.heading
    simp [Names.varIndex, Names.group, Lap.namesOf, bind, Except.bind, hc]
  have mC : (distanceMesh l.S t).mapM t.curvatureAt = .ok ((distanceMesh l.S t).map fun d => num (t.curvatureAt d)) :=
    mapM_ok _ _ _ fun d _ => h.loaded.curvatureAt d
  have mH : (distanceMesh l.S t).mapM t.headingAt = .ok ((distanceMesh l.S t).map fun d => num (t.headingAt d)) :=
    mapM_ok _ _ _ fun d _ => h.loaded.headingAt d
  obtain ⟨st, a1, a2, a3⟩ := setColumn_ok (a := List.replicate l.S.c.o.L.numStages sv) (i := l.S.c.M.states.idxOf "time")
    (v := Lap.timeGuess (distanceMesh l.S t)) (by rw [timeGuess_length (by omega), List.length_replicate, hmesh])
  obtain ⟨in1, b1, b2, b3⟩ := setColumn_ok (a := List.replicate l.S.c.o.L.numStages iv) (i := l.S.c.M.inputs.idxOf "track_curvature")
    (v := (distanceMesh l.S t).map fun d => num (t.curvatureAt d)) (by simp [hmesh])
  obtain ⟨in2, c1, c2, c3⟩ := setColumn_ok (a := in1) (i := l.S.c.M.inputs.idxOf "track_heading")
    (v := (distanceMesh l.S t).map fun d => num (t.headingAt d)) (by simp [hmesh, b2])
  rw [List.length_replicate] at a2 b2
  rw [b2] at c2
  -- the rows
  obtain ⟨D, hD⟩ : ∃ D : Nat → ℝ, D = at_ (distanceMesh l.S t) := ⟨_, rfl⟩
  have hDs : ∀ s, s < l.S.c.o.L.numStages → (distanceMesh l.S t)[s]? = some (D s) := by
    intro s hs
    rw [hD, at_eq (by omega), List.getElem?_eq_getElem (by omega)]
  obtain ⟨sr, hsr⟩ : ∃ sr : Nat → List ℝ, sr = fun s => sv.set (l.S.c.M.states.idxOf "time") ((D s - D 0) / 50) := ⟨_, rfl⟩
  obtain ⟨ir, hir⟩ : ∃ ir : Nat → List ℝ, ir = fun s => (iv.set (l.S.c.M.inputs.idxOf "track_curvature") (num (t.curvatureAt (D s)))).set
    (l.S.c.M.inputs.idxOf "track_heading") (num (t.headingAt (D s))) := ⟨_, rfl⟩
  have rowS : ∀ s, s < l.S.c.o.L.numStages → st[s]? = some (sr s) := by
    intro s hs
    rw [a3 s sv _ (by simp [hs]) (timeGuess_at (by omega)), hsr, hD]
  have rowI : ∀ s, s < l.S.c.o.L.numStages → in2[s]? = some (ir s) := by
    intro s hs
    rw [c3 s _ _ (b3 s iv _ (by simp [hs]) (by rw [List.getElem?_map, hDs s hs]; rfl)) (by rw [List.getElem?_map, hDs s hs]; rfl), hir]
  have lenS : ∀ s, (sr s).length = l.S.c.M.nx := fun s => by rw [hsr]; simp [s2.1, ExplicitModel.nx]
  have lenI : ∀ s, (ir s).length = l.S.c.M.nu := fun s => by rw [hir]; simp [i2.1, ExplicitModel.nu]
  have rowF : ∀ (f : List ℝ → List ℝ → ℝ → List ℝ) (s : Nat), s < l.S.c.o.L.numStages →
      (((st.zip in2).zip (distanceMesh l.S t)).map fun r : (List ℝ × List ℝ) × ℝ => f r.1.1 r.1.2 r.2)[s]? = some (f (sr s) (ir s) (D s)) := by
    intro f s hs
    rw [List.getElem?_map, List.zip_eq_zipWith, List.getElem?_zipWith, List.zip_eq_zipWith, List.getElem?_zipWith, rowS s hs, rowI s hs, hDs s hs]
    rfl
  have lenF : ∀ (f : List ℝ → List ℝ → ℝ → List ℝ),
      (((st.zip in2).zip (distanceMesh l.S t)).map fun r : (List ℝ × List ℝ) × ℝ => f r.1.1 r.1.2 r.2).length = l.S.c.o.L.numStages := by
    intro f
    simp [a2, c2, hmesh]
  have rect : ∀ (m : List (List ℝ)) (r : Nat → List ℝ) (k : Nat), m.length = l.S.c.o.L.numStages →
      (∀ s, s < l.S.c.o.L.numStages → m[s]? = some (r s)) → (∀ s, s < l.S.c.o.L.numStages → (r s).length = k) →
      Np.Rect l.S.c.o.L.numStages k m := by
    intro m r k hm hr hk
    refine ⟨hm, fun y hy => ?_⟩
    obtain ⟨s, hs, rfl⟩ := List.mem_iff_getElem.mp hy
    have := hr s (by omega)
    rw [List.getElem?_eq_getElem hs, Option.some.injEq] at this
    rw [this]; exact hk s (by omega)
  obtain ⟨vars, hvars⟩ : ∃ vars : Vars ℝ, vars = ⟨[("states", st), ("inputs", in2),
    ("states_dot", ((st.zip in2).zip (distanceMesh l.S t)).map fun r : (List ℝ × List ℝ) × ℝ => l.S.c.M.f r.1.1 r.1.2 r.2),
    ("con_outputs", ((st.zip in2).zip (distanceMesh l.S t)).map fun r : (List ℝ × List ℝ) × ℝ => l.S.c.M.h r.1.1 r.1.2 r.2)], []⟩ := ⟨_, rfl⟩
  have hguess : l.initGuess = l.S.c.o.L.flattenVar vars := by
    unfold Lap.initGuess
    simp only [bind, Except.bind, h.track, s1, iT, a1, i1, mC, iC, b1, mH, iH, c1, hvars]
  have shaped : l.S.c.o.L.Shaped vars := by
    refine ⟨by rw [hvars, h.good.groups]; rfl, by rw [hvars, h.noGlobals]; rfl, ?_⟩
    intro p hp
    rw [hvars] at hp
    simp only [List.mem_cons, List.not_mem_nil, or_false] at hp
    rcases hp with rfl | rfl | rfl | rfl
    · exact rect _ sr _ a2 rowS fun s _ => by rw [lenS, h.good.sizeX]
    · exact rect _ ir _ c2 rowI fun s _ => by rw [lenI, h.good.sizeU]
    · exact rect _ _ _ (lenF _) (rowF _) fun s _ => by rw [h.good.model.lenF _ _ _ (lenS s) (lenI s), h.good.sizeD]
    · exact rect _ _ _ (lenF _) (rowF _) fun s _ => by rw [h.good.model.lenH _ _ _ (lenS s) (lenI s), h.good.sizeY]
  obtain ⟨x, hx, hxl, _⟩ := C03_unflatten_flatten hF vars shaped
  have readRow : ∀ (g : String) (m : List (List ℝ)) (r : Nat → List ℝ), g ∈ ["states", "inputs", "states_dot", "con_outputs"] →
      vars.stage.lookup g = some m → (∀ s, s < l.S.c.o.L.numStages → m[s]? = some (r s)) → (∀ s, (r s).length = l.S.c.o.L.size g) →
      (∀ s, s < l.S.c.o.L.numStages → readGroup l.S.c.o.L x g s = r s) ∧
      ∀ s n a, s < l.S.c.o.L.numStages → n ∈ l.S.c.o.L.namesOf g → (r s)[(l.S.c.o.L.namesOf g).idxOf n]? = some a →
        readAt l.S.c.o.L x g n s = a := by
    intro g m r hg hm hr hk
    have one : ∀ s (i : Nat) n a, s < l.S.c.o.L.numStages → (l.S.c.o.L.namesOf g)[i]? = some n → (r s)[i]? = some a →
        readAt l.S.c.o.L x g n s = a := by
      intro s i n a hs hi ha
      have := C04_get_var_flatten hL hF shaped hx hm (lookup_names hL (gmem g hg)) hi (hr s hs) ha
      unfold readAt
      rw [this]
    constructor
    · intro s hs
      unfold readGroup
      have hkl : (r s).length = (l.S.c.o.L.namesOf g).length := hk s
      refine List.ext_getElem (by simpa using hkl.symm) fun i h1 h2 => ?_
      rw [List.getElem_map]
      have h1' : i < (l.S.c.o.L.namesOf g).length := by simpa using h1
      exact one s i _ _ hs (List.getElem?_eq_getElem h1') (List.getElem?_eq_getElem h2)
    · intro s n a hs hn ha
      exact one s _ n a hs (by rw [List.getElem?_eq_getElem (List.idxOf_lt_length_of_mem hn), List.getElem_idxOf]) ha
  obtain ⟨gS, vS⟩ := readRow "states" st sr (by simp) (by rw [hvars]; rfl) rowS (fun s => by rw [lenS, h.good.sizeX])
  obtain ⟨gI, vI⟩ := readRow "inputs" in2 ir (by simp) (by rw [hvars]; rfl) rowI (fun s => by rw [lenI, h.good.sizeU])
  obtain ⟨gD, _⟩ := readRow "states_dot" _ _ (by simp) (by rw [hvars]; rfl) (rowF l.S.c.M.f)
    (fun s => by rw [h.good.model.lenF _ _ _ (lenS s) (lenI s), h.good.sizeD])
  obtain ⟨gY, _⟩ := readRow "con_outputs" _ _ (by simp) (by rw [hvars]; rfl) (rowF l.S.c.M.h)
    (fun s => by rw [h.good.model.lenH _ _ _ (lenS s) (lenI s), h.good.sizeY])
  rw [h.stateNames] at vS
  rw [h.inputNames] at vI
  have hDm : ∀ s, D s = l.S.c.mesh.getD s 0 * t.totalDistance := fun s => by rw [hD]; exact getD_map_mul s
  refine ⟨x, hguess.trans hx, hxl, ?_⟩
  intro s hs
  rw [← hDm s]
  refine ⟨?_, ?_, ?_, ?_, ?_, ?_, ?_⟩
  · refine (vS s "time" ((D s - D 0) / 50) hs h.time ?_).trans ?_
    · rw [hsr]
      dsimp only
      rw [set_value s2 h.time, if_pos rfl]
    · rw [hDm, hDm]; ring
  · intro n hn hne
    refine vS s n _ hs hn ?_
    rw [hsr]
    dsimp only
    rw [set_value s2 hn, if_neg hne]
    exact lookup_constStates (h.states n hn) hne
  · rw [vI s "track_curvature" (num (t.curvatureAt (D s))) hs h.curvature ?_]
    · exact h.loaded.curvatureAt _
    · rw [hir]
      dsimp only
      rw [List.getElem?_set_ne, set_value i2 h.curvature, if_pos rfl]
      intro e
      have := (List.idxOf_inj h.heading).mp e
      simp at this
  · rw [vI s "track_heading" (num (t.headingAt (D s))) hs h.heading ?_]
    · exact h.loaded.headingAt _
    · rw [hir]
      dsimp only
      rw [List.getElem?_set_self]
      rw [List.length_set, i2.1]
      exact List.idxOf_lt_length_of_mem h.heading
  · intro n hn h1 h2
    refine vI s n _ hs hn ?_
    rw [hir]
    dsimp only
    rw [List.getElem?_set_ne, set_value i2 hn, if_neg h1]
    · exact lookup_constInputs (h.inputs n hn)
    · intro e
      exact h2 ((List.idxOf_inj h.heading).mp e).symm
  · rw [gS s hs, gI s hs, gD s hs]
  · rw [gS s hs, gI s hs, gY s hs]

end Lumos.LapSim
