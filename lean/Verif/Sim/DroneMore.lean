import Verif.Sim.DroneProps
/-!
# C77: construction, initial guess, least duration and an untilted flip
-/

namespace Lumos.Sim

open Lumos DecVar DecVar.Layout Bounds Ocp Lumos.Trans NLP

/-- **C77** (construction). The problem exists exactly when the transcription does and the mesh accepts the interval points. -/
theorem C77_construct (g : ℝ) (name : String) (kwargs : List (String × Int)) {n : Nat} (hn : 1 ≤ n) (pts : Option (List ℝ)) :
    (∃ S b, droneSetup g name kwargs n pts = .ok S ∧ S.build = .ok b) ↔
      ∃ t mesh, makeTranscription name kwargs = .ok t ∧ setMesh t.interp n pts = .ok mesh := by
  constructor
  · rintro ⟨S, b, h, _⟩
    unfold droneSetup front at h
    obtain ⟨t, ht, h⟩ := Config.bind_ok h
    obtain ⟨L, _, h⟩ := Config.bind_ok h
    obtain ⟨mesh, hm, _⟩ := Config.bind_ok h
    exact ⟨t, mesh, ht, hm⟩
  · rintro ⟨t, mesh, ht, hm⟩
    obtain ⟨S, hS, _⟩ := front_ok (u := droneUnit g) (bounds := Config.droneBounds) (bcs := droneBCs) (scales := [])
      (droneModel_good g) ht hn hm
    obtain ⟨_, b, _, hb, _⟩ := C77_problem hn (g := g) hS
    exact ⟨S, b, hS, hb⟩

/-- **C77** (guess). `get_init_guess` returns a vector of the right length in which the duration is 1, every state is 0.1, the thrust
is 10 and the rate 0; the equations of motion hold at every stage. It is never within the bounds: it violates the boundary conditions. -/
theorem C77_guess {g : ℝ} {name : String} {kwargs : List (String × Int)} {n : Nat} (hn : 1 ≤ n) {pts : Option (List ℝ)} {S : Setup}
    (h : droneSetup g name kwargs n pts = .ok S) {b : Built} (hb : S.build = .ok b) :
    ∃ x, droneGuess S = .ok x ∧ x.length = S.c.o.L.numDec ∧ droneTime S x = .ok 1 ∧
    (∀ s, s < S.c.o.L.numStages →
      (∀ m ∈ ["x", "x_dot", "z", "z_dot", "theta"], readAt S.c.o.L x "states" m s = 0.1) ∧
      readAt S.c.o.L x "inputs" "f" s = 10 ∧ readAt S.c.o.L x "inputs" "omega" s = 0 ∧
      readAt S.c.o.L x "states_dot" "x" s = 0.1 ∧ readAt S.c.o.L x "states_dot" "x_dot" s = 10 * Real.sin 0.1 ∧
      readAt S.c.o.L x "states_dot" "z" s = 0.1 ∧ readAt S.c.o.L x "states_dot" "z_dot" s = 10 * Real.cos 0.1 - g ∧
      readAt S.c.o.L x "states_dot" "theta" s = 0 ∧ readAt S.c.o.L x "con_outputs" "sin_theta" s = Real.sin 0.1) ∧
    ¬ Within b.bounds.lb b.bounds.ub x := by
  obtain ⟨t, b', ht, hb', hp⟩ := C77_problem hn h
  rw [hb, Except.ok.injEq] at hb'
  subst hb'
  obtain ⟨t', ht', hm, hbd, hbc, _⟩ := drone_made hn h
  rw [ht, Except.ok.injEq] at ht'
  subst ht'
  have hS := drone_good hn h
  have hN2 : 2 ≤ S.c.o.L.numStages := by
    have : 1 ≤ n * (t.stages - 1) := Nat.mul_pos hn (by have := (C38_shapes ht).1; omega)
    rw [hm.stages]; omega
  have eM : S.c.M = droneModel g := hm.model
  have eG : S.c.o.L.globals = ["mesh_scale"] := by rw [hm.layout]; rfl
  have eS : S.c.o.L.namesOf "states" = ["x", "x_dot", "z", "z_dot", "theta"] := by rw [hm.layout]; rfl
  have eI : S.c.o.L.namesOf "inputs" = ["f", "omega"] := by rw [hm.layout]; rfl
  have eD : S.c.o.L.namesOf "states_dot" = ["x", "x_dot", "z", "z_dot", "theta"] := by rw [hm.layout]; rfl
  have eY : S.c.o.L.namesOf "con_outputs" = ["sin_theta"] := by rw [hm.layout]; rfl
  have hpts := hm.points
  obtain ⟨N, hN⟩ : ∃ N, N = S.c.o.L.numStages := ⟨_, rfl⟩
  have hst : (List.replicate S.c.M.nx (0 : ℝ)).map (· + 0.1) = [0.1, 0.1, 0.1, 0.1, 0.1] := by
    rw [eM]; simp [droneModel, ExplicitModel.nx, List.replicate]
  have rows : ∀ f : List ℝ → List ℝ → ℝ → List ℝ, (∀ x u μ μ', f x u μ = f x u μ') →
      (((List.replicate N [(0.1 : ℝ), 0.1, 0.1, 0.1, 0.1]).zip (List.replicate N [0 + (10 : ℝ), 0 + 0])).zip (S.c.mesh.map (· * (1 : ℝ)))).map
        (fun r : (List ℝ × List ℝ) × ℝ => f r.1.1 r.1.2 r.2) = List.replicate N (f [0.1, 0.1, 0.1, 0.1, 0.1] [10, 0] 0) := by
    intro f hf
    refine List.ext_getElem (by simp [hpts, hN]) fun i h1 h2 => ?_
    simp [hf _ _ _ 0]
  obtain ⟨x, h1, h2, h3, h4⟩ := flatten_read (S := S) hS.cond hm.free eG (A := List.replicate N [(0.1 : ℝ), 0.1, 0.1, 0.1, 0.1])
    (B := List.replicate N [(10 : ℝ), 0]) (C := List.replicate N ((droneModel g).f [0.1, 0.1, 0.1, 0.1, 0.1] [10, 0] 0))
    (E := List.replicate N ((droneModel g).h [0.1, 0.1, 0.1, 0.1, 0.1] [10, 0] 0)) 1
    ⟨by simp [hN], by intro r hr; rw [List.eq_of_mem_replicate hr, eM]; rfl⟩ ⟨by simp [hN], by intro r hr; rw [List.eq_of_mem_replicate hr, eM]; rfl⟩
    ⟨by simp [hN], by intro r hr; rw [List.eq_of_mem_replicate hr, eM]; rfl⟩ ⟨by simp [hN], by intro r hr; rw [List.eq_of_mem_replicate hr, eM]; rfl⟩
  have hread : ∀ s, s < S.c.o.L.numStages →
      (∀ m ∈ ["x", "x_dot", "z", "z_dot", "theta"], readAt S.c.o.L x "states" m s = 0.1) ∧
      readAt S.c.o.L x "inputs" "f" s = 10 ∧ readAt S.c.o.L x "inputs" "omega" s = 0 ∧
      readAt S.c.o.L x "states_dot" "x" s = 0.1 ∧ readAt S.c.o.L x "states_dot" "x_dot" s = 10 * Real.sin 0.1 ∧
      readAt S.c.o.L x "states_dot" "z" s = 0.1 ∧ readAt S.c.o.L x "states_dot" "z_dot" s = 10 * Real.cos 0.1 - g ∧
      readAt S.c.o.L x "states_dot" "theta" s = 0 ∧ readAt S.c.o.L x "con_outputs" "sin_theta" s = Real.sin 0.1 := by
    intro s hs
    have rS := (h4 ("states", List.replicate N [(0.1 : ℝ), 0.1, 0.1, 0.1, 0.1]) (by simp) s (by simpa [hN] using hs)).1
    have rI := (h4 ("inputs", List.replicate N [(10 : ℝ), 0]) (by simp) s (by simpa [hN] using hs)).1
    have rD := (h4 ("states_dot", List.replicate N ((droneModel g).f [0.1, 0.1, 0.1, 0.1, 0.1] [10, 0] 0)) (by simp) s (by simpa [hN] using hs)).1
    have rY := (h4 ("con_outputs", List.replicate N ((droneModel g).h [0.1, 0.1, 0.1, 0.1, 0.1] [10, 0] 0)) (by simp) s (by simpa [hN] using hs)).1
    simp only [readGroup, eS, List.map_cons, List.map_nil, List.getElem_replicate, List.cons.injEq, and_true] at rS
    simp only [readGroup, eI, List.map_cons, List.map_nil, List.getElem_replicate, List.cons.injEq, and_true] at rI
    simp only [readGroup, eD, List.map_cons, List.map_nil, List.getElem_replicate, droneModel, List.cons.injEq, and_true, List.getD_cons_zero,
      List.getD_cons_succ] at rD
    simp only [readGroup, eY, List.map_cons, List.map_nil, List.getElem_replicate, droneModel, List.cons.injEq, and_true, List.getD_cons_zero,
      List.getD_cons_succ] at rY
    obtain ⟨a1, a2, a3, a4, a5⟩ := rS
    obtain ⟨b1, b2⟩ := rI
    obtain ⟨c1, c2, c3, c4, c5⟩ := rD
    refine ⟨?_, b1, b2, c1, c2, c3, c4, c5, rY⟩
    intro m hmem
    simp only [List.mem_cons, List.not_mem_nil, or_false] at hmem
    rcases hmem with rfl | rfl | rfl | rfl | rfl <;> assumption
  refine ⟨x, ?_, h2, ?_, hread, ?_⟩
  · rw [← h1]
    unfold droneGuess
    dsimp only
    rw [hst, ← hN, rows _ (by rw [eM]; intros; rfl), rows _ (by rw [eM]; intros; rfl), eM]
    simp
  · rw [(hp x h2).2.2, h3]
  · intro hw
    have eN := numStages_pos S.c.o.L
    rw [within_iff hS hm.plain.2.2.2 hm.free eG hb h2] at hw
    rw [hbd, hbc] at hw
    have e0 : 0 < S.c.o.L.numStages := eN
    have w := hw.1 0 "states" "x" (by rw [hm.layout, isVar_iff]; rw [hm.layout] at e0; exact ⟨e0, Or.inl ⟨rfl, by simp [droneModel]⟩⟩)
    rw [(hread 0 e0).1 "x" (by simp), hm.layout, drone_limits_first (by simp) (by rw [← hm.layout]; exact hN2), inside_fix] at w
    norm_num at w


theorem Made.total {M : ExplicitModel} {u : UnitProblem}
    {t : Transcription} {n : Nat} {pts : Option (List ℝ)} {S : Setup} (h : Made M u t n pts S) :
    S.c.o.normLen.sum = (pointsOf n pts).getD n 0 - (pointsOf n pts).getD 0 0 := by
  have e : S.c.o.normLen.sum = ∑ i ∈ Finset.range n, S.c.o.normLen.getD i 0 := by
    rw [← h.lens]
    have := sum_map_range S.c.o.normLen (0 : ℝ) id
    simpa using this
  rw [e, Finset.sum_congr rfl fun i hi => h.len i (Finset.mem_range.mp hi), Finset.sum_range_sub fun i => (pointsOf n pts).getD i 0]

/-- **C77** (least duration). Every flight that the problem admits takes at least the time of a full turn at the largest rate: on a
mesh from `p` to `q` the duration times `q - p` is at least `π / 5`, whatever the transcription. -/
theorem C77_least_duration {g : ℝ} {name : String} {kwargs : List (String × Int)} {n : Nat} (hn : 1 ≤ n) {pts : Option (List ℝ)} {S : Setup}
    (h : droneSetup g name kwargs n pts = .ok S) {b : Built} (hb : S.build = .ok b) {x : List ℝ} (hx : x.length = S.c.o.L.numDec)
    (hf : b.Feasible (vdiv x b.prob.scales)) (hw : Within b.bounds.lb b.bounds.ub x) :
    ∃ T, droneTime S x = .ok T ∧ Real.pi / 5 ≤ T * ((pointsOf n pts).getD n 0 - (pointsOf n pts).getD 0 0) ∧ (pts = none → Real.pi / 5 ≤ T) := by
  obtain ⟨t, b', ht, hb', hp⟩ := C77_problem hn h
  rw [hb, Except.ok.injEq] at hb'
  subst hb'
  obtain ⟨t', ht', hm, _, _, _⟩ := drone_made hn h
  rw [ht, Except.ok.injEq] at ht'
  subst ht'
  have hS := drone_good hn h
  obtain ⟨h1, _, h3⟩ := hp x hx
  have fl := h1.mp ⟨hf, hw⟩
  have sol := (C47_lifted hS hm.plain.2.2.2 hb hx).mp hf
  have eS : S.c.o.L.namesOf "states" = ["x", "x_dot", "z", "z_dot", "theta"] := by rw [hm.layout]; rfl
  have eD : S.c.o.L.namesOf "states_dot" = ["x", "x_dot", "z", "z_dot", "theta"] := by rw [hm.layout]; rfl
  have eN := hm.stages
  have hT := fl.duration.1
  have rate := (C76_problem_rate ht hm.uses (by rw [hm.lens, hm.layout]; rfl) (fun l hl => (hm.pos l hl).le) sol (by linarith) (k := 4)
    (n := "theta") (nd := "theta") (by rw [eS]; rfl) (by rw [eD]; rfl) (lo := -10) (hi := 10) (by
      intro s hs
      have hs' : s ≤ n * (t.stages - 1) := by omega
      rw [fl.turn s hs']
      exact abs_le.mp (fl.rate s hs'))).2
  have e1 : S.c.o.L.numStages - 1 = n * (t.stages - 1) := by omega
  rw [e1, fl.flip, fl.start "theta" (by simp), hm.total] at rate
  have main : Real.pi / 5 ≤ readScale S.c.o x * ((pointsOf n pts).getD n 0 - (pointsOf n pts).getD 0 0) := by linarith
  refine ⟨_, h3, main, ?_⟩
  rintro rfl
  have : (pointsOf n none) = linspace01 n := rfl
  have hn0 : (n : ℝ) ≠ 0 := by positivity
  rw [this, getD_linspace01 n n (le_refl _), getD_linspace01 n 0 (Nat.zero_le _), div_self hn0] at main
  simpa using main

/-! ## A flip in one interval -/

/-- The equations of the trapezoidal rule. -/
theorem steps_trapezoidal {X Xd : Nat → ℝ} {h : ℝ} : Steps .trapezoidal X Xd h ↔ X 1 - X 0 = h * (0.5 * (Xd 0 + Xd 1)) := by
  have key : ∑ j ∈ Finset.range 2, entry (Transcription.trapezoidal).A 0 j * X j = X 1 - X 0 ∧
      ∑ j ∈ Finset.range 2, entry (Transcription.trapezoidal).B 0 j * Xd j = 0.5 * (Xd 0 + Xd 1) := by
    simp only [Transcription.stages, Finset.sum_range_succ, Finset.sum_range_zero, Transcription.A, Transcription.B,
      Transcription.numCons]
    rw [diags_entry _ _ (by omega) (by omega), diags_entry _ _ (by omega) (by omega),
      diags_entry _ _ (by omega) (by omega), diags_entry _ _ (by omega) (by omega)]
    norm_num
    constructor <;> ring
  unfold Steps
  simp only [Transcription.stages]
  constructor
  · intro H
    have := H 0 (by omega)
    rwa [key.1, key.2] at this
  · intro H l hl
    obtain rfl : l = 0 := by omega
    rwa [key.1, key.2]

/-- The values of the flight of `C77_flip_without_tilting` for `n` intervals of `d` seconds: straight up with a constant speed between
the first and the last interval; the attitude jumps by a full turn in the last one. -/
noncomputable def flipValue (g d : ℝ) (n : Nat) (grp m : String) (s : Nat) : ℝ :=
  let a := 10 / (d ^ 2 * (n - 1))
  let acc := if s = 0 then a else if s = n then -a else 0
  let vel := if s = 0 ∨ s = n then 0 else d * a / 2
  if grp = "states" then
    if m = "z" then (if s = 0 then 0 else if s = n then 5 else d * (d * a / 2) * (s - 1 / 2))
    else if m = "z_dot" then vel
    else if m = "theta" then (if s = n then 2 * Real.pi else 0)
    else 0
  else if grp = "inputs" then
    if m = "f" then g + acc else if s = n then 4 * Real.pi / d else 0
  else if grp = "states_dot" then
    if m = "z" then vel else if m = "z_dot" then acc else if m = "theta" then (if s = n then 4 * Real.pi / d else 0) else 0
  else 0

theorem flip_flight {g d : ℝ} (hg : 8 ≤ g ∧ g ≤ 12) (hd : d = 50 / 39) {n : Nat} (hn : 2 ≤ n) (hn' : n ≤ 39) :
    Flight g .trapezoidal n (pointsOf n none) (flipValue g d n) (n * d) := by
  have hst : Transcription.trapezoidal.stages - 1 = 1 := rfl
  have pi3 := Real.pi_gt_three
  have pi4 : Real.pi < 3.15 := Real.pi_lt_d2
  have hn2 : (2 : ℝ) ≤ n := by exact_mod_cast hn
  have hn39 : (n : ℝ) ≤ 39 := by exact_mod_cast hn'
  have hd0 : 0 < d := by rw [hd]; norm_num
  obtain ⟨a, ha⟩ : ∃ a, a = 10 / (d ^ 2 * ((n : ℝ) - 1)) := ⟨_, rfl⟩
  have ha0 : 0 < a := by rw [ha]; have : (0 : ℝ) < n - 1 := by linarith
                         positivity
  have hda : d ^ 2 * (n - 1) * a = 10 := by
    rw [ha]; have : (n : ℝ) - 1 ≠ 0 := by linarith
    field_simp
  have ha7 : a ≤ 6.1 := by
    have h1 : d ^ 2 * a ≤ 10 := by nlinarith [mul_nonneg (sq_nonneg d) ha0.le]
    rw [hd] at h1
    norm_num at h1 ⊢
    linarith
  have hcos : ∀ s, Real.cos (if s = n then 2 * Real.pi else 0) = 1 := by intro s; split <;> simp
  have hsin : ∀ s, Real.sin (if s = n then 2 * Real.pi else 0) = 0 := by intro s; split <;> simp
  have hlen : ∀ i, i < n → ((pointsOf n none).getD (i + 1) 0 - (pointsOf n none).getD i 0) * (n * d) = d := by
    intro i hi
    have : (pointsOf n none) = linspace01 n := rfl
    have hn0 : (n : ℝ) ≠ 0 := by linarith
    rw [this, getD_linspace01 n (i + 1) hi, getD_linspace01 n i hi.le]
    push_cast
    field_simp
    ring
  have hom : 4 * Real.pi / d ≤ 10 := by rw [hd]; rw [div_le_iff₀ (by norm_num)]; linarith
  have hom0 : 0 ≤ 4 * Real.pi / d := by positivity
  -- the values
  have vx : ∀ s, flipValue g d n "states" "x" s = 0 := fun s => by simp [flipValue]
  have vxd : ∀ s, flipValue g d n "states" "x_dot" s = 0 := fun s => by simp [flipValue]
  have vz : ∀ s, flipValue g d n "states" "z" s = if s = 0 then 0 else if s = n then 5 else d * (d * a / 2) * (s - 1 / 2) := fun s => by
    simp [flipValue, ha]
  have vzd : ∀ s, flipValue g d n "states" "z_dot" s = if s = 0 ∨ s = n then 0 else d * a / 2 := fun s => by simp [flipValue, ha]
  have vth : ∀ s, flipValue g d n "states" "theta" s = if s = n then 2 * Real.pi else 0 := fun s => by simp [flipValue]
  have vf : ∀ s, flipValue g d n "inputs" "f" s = g + if s = 0 then a else if s = n then -a else 0 := fun s => by simp [flipValue, ha]
  have vom : ∀ s, flipValue g d n "inputs" "omega" s = if s = n then 4 * Real.pi / d else 0 := fun s => by simp [flipValue]
  have dx : ∀ s, flipValue g d n "states_dot" "x" s = 0 := fun s => by simp [flipValue]
  have dxd : ∀ s, flipValue g d n "states_dot" "x_dot" s = 0 := fun s => by simp [flipValue]
  have dz : ∀ s, flipValue g d n "states_dot" "z" s = if s = 0 ∨ s = n then 0 else d * a / 2 := fun s => by simp [flipValue, ha]
  have dzd : ∀ s, flipValue g d n "states_dot" "z_dot" s = if s = 0 then a else if s = n then -a else 0 := fun s => by simp [flipValue, ha]
  have dth : ∀ s, flipValue g d n "states_dot" "theta" s = if s = n then 4 * Real.pi / d else 0 := fun s => by simp [flipValue]
  have oy : ∀ s, flipValue g d n "con_outputs" "sin_theta" s = 0 := fun s => by simp [flipValue]
  have hv0 : 0 ≤ d * a / 2 := by positivity
  have hv5 : d * a / 2 ≤ 50 := by rw [hd]; linarith
  have hz5 : ∀ s : Nat, s ≠ 0 → s ≤ n → 0 ≤ d * (d * a / 2) * ((s : ℝ) - 1 / 2) ∧ d * (d * a / 2) * ((s : ℝ) - 1 / 2) ≤ 50 := by
    intro s h0 h1
    have : (1 : ℝ) ≤ s := by exact_mod_cast Nat.pos_of_ne_zero h0
    have : (s : ℝ) ≤ n := by exact_mod_cast h1
    have hq : 0 ≤ d * (d * a / 2) := by positivity
    refine ⟨mul_nonneg hq (by linarith), ?_⟩
    have : d * (d * a / 2) * ((s : ℝ) - 1 / 2) ≤ d * (d * a / 2) * ((n : ℝ) - 1 + 1 / 2) := mul_le_mul_of_nonneg_left (by linarith) hq
    have e2 : d * (d * a / 2) * ((n : ℝ) - 1) = 5 := by linear_combination hda / 2
    have e3 : d * (d * a / 2) ≤ 10 := by rw [hd]; linarith
    linarith
  have hn0 : (0 : Nat) ≠ n := by omega
  refine ⟨?_, ?_, ?_, ?_, ?_, ?_, ?_, ?_, ?_, ?_, ?_, ?_, ?_, ?_, ?_, ?_⟩
  · intro s _; rw [dx, vxd]
  · intro s _; rw [dxd, vth, hsin, mul_zero]
  · intro s _; rw [dz, vzd]
  · intro s _; rw [dzd, vf, vth, hcos]; ring
  · intro s _; rw [dth, vom]
  · intro s _; rw [oy, vth, hsin]
  · intro i hi m hm
    rw [hst, hlen i hi, steps_trapezoidal]
    simp only [mul_one, add_zero]
    have i1 : i + 1 ≠ 0 := by omega
    have i2 : i ≠ n := by omega
    simp only [List.mem_cons, List.not_mem_nil, or_false] at hm
    rcases hm with rfl | rfl | rfl | rfl | rfl
    · rw [vx, vx, dx, dx]; ring
    · rw [vxd, vxd, dxd, dxd]; ring
    · rw [vz, vz, dz, dz, if_neg i1, if_neg i2]
      by_cases h0 : i = 0
      · subst h0
        have h1 : (0 : Nat) + 1 ≠ n := by omega
        rw [if_neg h1, if_pos rfl, if_pos (Or.inl rfl), if_neg (by omega)]
        push_cast; ring
      · rw [if_neg h0, if_neg (show ¬ (i = 0 ∨ i = n) by omega)]
        by_cases h1 : i + 1 = n
        · rw [if_pos h1, if_pos (Or.inr h1)]
          have : (n : ℝ) = i + 1 := by rw [← h1]; push_cast; ring
          rw [this] at hda
          linear_combination -hda / 2
        · rw [if_neg h1, if_neg (by omega)]
          push_cast; ring
    · rw [vzd, vzd, dzd, dzd, if_neg i1, if_neg i2]
      by_cases h0 : i = 0
      · subst h0
        have h1 : (0 : Nat) + 1 ≠ n := by omega
        rw [if_pos (Or.inl rfl), if_neg (by omega), if_neg h1, if_pos rfl]
        ring
      · rw [if_neg h0, if_neg (show ¬ (i = 0 ∨ i = n) by omega)]
        by_cases h1 : i + 1 = n
        · rw [if_pos h1, if_pos (Or.inr h1)]; ring
        · rw [if_neg h1, if_neg (by omega)]; ring
    · rw [vth, vth, dth, dth, if_neg i2, if_neg i2]
      by_cases h1 : i + 1 = n
      · rw [if_pos h1, if_pos h1]
        field_simp
        ring
      · rw [if_neg h1, if_neg h1]; ring
  · intro s hs m hm
    rw [hst, mul_one] at hs
    simp only [List.mem_cons, List.not_mem_nil, or_false] at hm
    rcases hm with rfl | rfl | rfl | rfl
    · rw [vx]; norm_num
    · rw [vxd]; norm_num
    · rw [vz]
      split
      · norm_num
      · next h0 =>
        split
        · rw [abs_of_pos (by norm_num)]; norm_num
        · rw [abs_of_nonneg (hz5 s h0 hs).1]; exact (hz5 s h0 hs).2
    · rw [vzd]
      split
      · norm_num
      · rw [abs_of_nonneg hv0]; exact hv5
  · intro s _
    rw [vth]
    split
    · rw [abs_of_pos (by positivity)]; linarith
    · rw [abs_zero]; positivity
  · intro s _
    rw [vf]
    split
    · constructor <;> linarith
    · split <;> constructor <;> linarith
  · intro s _
    rw [vom]
    split
    · rw [abs_of_nonneg hom0]; exact hom
    · norm_num
  · intro m hm
    simp only [List.mem_cons, List.not_mem_nil, or_false] at hm
    rcases hm with rfl | rfl | rfl | rfl | rfl
    · exact vx 0
    · exact vxd 0
    · rw [vz, if_pos rfl]
    · rw [vzd, if_pos (Or.inl rfl)]
    · rw [vth, if_neg hn0]
  · intro m hm
    rw [hst, mul_one]
    simp only [List.mem_cons, List.not_mem_nil, or_false] at hm
    rcases hm with rfl | rfl | rfl
    · exact vx _
    · exact vxd _
    · rw [vzd, if_pos (Or.inr rfl)]
  · rw [hst, mul_one, vz, if_neg (by omega), if_pos rfl]
  · rw [hst, mul_one, vth, if_pos rfl]
  · rw [hd]
    constructor
    · norm_num; linarith
    · linarith

/-- The rows of a table of values. -/
theorem table_rect (N : Nat) (ns : List String) (v : String → Nat → ℝ) :
    Np.Rect N ns.length ((List.range N).map fun s => ns.map fun m => v m s) :=
  ⟨by simp, by intro r hr; obtain ⟨s, _, rfl⟩ := List.mem_map.mp hr; simp⟩

/-- Every assignment of values to the variables is that of some decision vector. -/
theorem Made.point {M : ExplicitModel} {u : UnitProblem}
    {t : Transcription} {n : Nat} {pts : Option (List ℝ)} {S : Setup} (h : Made M u t n pts S) (hS : S.c.Good)
    (v : String → String → Nat → ℝ) (T : ℝ) : ∃ x : List ℝ, x.length = S.c.o.L.numDec ∧ readScale S.c.o x = T ∧
      ∀ s g m, S.c.o.L.IsVar (.stage s g m) → readAt S.c.o.L x g m s = v g m s := by
  have eG : S.c.o.L.globals = ["mesh_scale"] := by rw [h.layout]; rfl
  have tab : ∀ g ns, Np.Rect S.c.o.L.numStages (List.length ns) ((List.range S.c.o.L.numStages).map fun s => ns.map fun m => v g m s) :=
    fun g ns => table_rect _ ns (v g)
  have eM := h.model
  obtain ⟨x, _, h2, h3, h4⟩ := flatten_read (S := S) hS h.free eG T
    (by have := tab "states" M.states; rwa [show M.states.length = S.c.M.nx by rw [eM]; rfl] at this)
    (by have := tab "inputs" M.inputs; rwa [show M.inputs.length = S.c.M.nu by rw [eM]; rfl] at this)
    (by have := tab "states_dot" M.states; rwa [show M.states.length = S.c.M.nx by rw [eM]; rfl] at this)
    (by have := tab "con_outputs" M.conOutputs; rwa [show M.conOutputs.length = S.c.M.ny by rw [eM]; rfl] at this)
  refine ⟨x, h2, h3, ?_⟩
  have gen : ∀ g (ns : List String), (g, (List.range S.c.o.L.numStages).map fun s => ns.map fun m => v g m s) ∈
      [("states", (List.range S.c.o.L.numStages).map fun s => M.states.map fun m => v "states" m s),
       ("inputs", (List.range S.c.o.L.numStages).map fun s => M.inputs.map fun m => v "inputs" m s),
       ("states_dot", (List.range S.c.o.L.numStages).map fun s => M.states.map fun m => v "states_dot" m s),
       ("con_outputs", (List.range S.c.o.L.numStages).map fun s => M.conOutputs.map fun m => v "con_outputs" m s)] →
      S.c.o.L.namesOf g = ns → ∀ s, s < S.c.o.L.numStages → ∀ m ∈ ns, readAt S.c.o.L x g m s = v g m s := by
    intro g ns hmem hns s hs m hm
    obtain ⟨i, hi, rfl⟩ := List.mem_iff_getElem.mp hm
    refine (h4 _ hmem s (by simpa using hs)).2 i _ _ (by rw [hns]; exact List.getElem?_eq_getElem hi) ?_
    simp [hi]
  intro s g m hv
  rw [h.layout, isVar_iff, ← h.layout] at hv
  obtain ⟨hs, (⟨rfl, hm⟩ | ⟨rfl, hm⟩ | ⟨rfl, hm⟩ | ⟨rfl, hm⟩)⟩ := hv
  · exact gen "states" M.states (by simp) (by rw [h.layout]; rfl) s hs m hm
  · exact gen "inputs" M.inputs (by simp) (by rw [h.layout]; rfl) s hs m hm
  · exact gen "states_dot" M.states (by simp) (by rw [h.layout]; rfl) s hs m hm
  · exact gen "con_outputs" M.conOutputs (by simp) (by rw [h.layout]; rfl) s hs m hm


theorem Steps.congr {t : Transcription} {X X' Xd Xd' : Nat → ℝ} {h : ℝ} (e : ∀ j, j < t.stages → X j = X' j) (e' : ∀ j, j < t.stages → Xd j = Xd' j)
    (H : Steps t X Xd h) : Steps t X' Xd' h := by
  intro l hl
  have h1 : ∑ j ∈ Finset.range t.stages, entry t.A l j * X' j = ∑ j ∈ Finset.range t.stages, entry t.A l j * X j :=
    Finset.sum_congr rfl fun j hj => by rw [e j (Finset.mem_range.mp hj)]
  have h2 : ∑ j ∈ Finset.range t.stages, entry t.B l j * Xd' j = ∑ j ∈ Finset.range t.stages, entry t.B l j * Xd j :=
    Finset.sum_congr rfl fun j hj => by rw [e' j (Finset.mem_range.mp hj)]
  rw [h1, h2]
  exact H l hl

theorem Flight.congr {g : ℝ} {t : Transcription} (ht : 2 ≤ t.stages) {n : Nat} {p : List ℝ} {v w : String → String → Nat → ℝ} {T : ℝ}
    (e : ∀ s grp m, s ≤ n * (t.stages - 1) → ((grp = "states" ∧ m ∈ (droneModel g).states) ∨ (grp = "inputs" ∧ m ∈ (droneModel g).inputs) ∨
      (grp = "states_dot" ∧ m ∈ (droneModel g).states) ∨ (grp = "con_outputs" ∧ m ∈ (droneModel g).conOutputs)) → w grp m s = v grp m s)
    (h : Flight g t n p v T) : Flight g t n p w T := by
  have st : ∀ s m, s ≤ n * (t.stages - 1) → m ∈ ["x", "x_dot", "z", "z_dot", "theta"] → w "states" m s = v "states" m s :=
    fun s m hs hm => e s "states" m hs (Or.inl ⟨rfl, hm⟩)
  have dt : ∀ s m, s ≤ n * (t.stages - 1) → m ∈ ["x", "x_dot", "z", "z_dot", "theta"] → w "states_dot" m s = v "states_dot" m s :=
    fun s m hs hm => e s "states_dot" m hs (Or.inr (Or.inr (Or.inl ⟨rfl, hm⟩)))
  have ip : ∀ s m, s ≤ n * (t.stages - 1) → m ∈ ["f", "omega"] → w "inputs" m s = v "inputs" m s :=
    fun s m hs hm => e s "inputs" m hs (Or.inr (Or.inl ⟨rfl, hm⟩))
  have oy : ∀ s, s ≤ n * (t.stages - 1) → w "con_outputs" "sin_theta" s = v "con_outputs" "sin_theta" s :=
    fun s hs => e s "con_outputs" "sin_theta" hs (Or.inr (Or.inr (Or.inr ⟨rfl, by simp [droneModel]⟩)))
  have sub4 : ∀ m ∈ ["x", "x_dot", "z", "z_dot"], m ∈ ["x", "x_dot", "z", "z_dot", "theta"] := by intro m hm; simp at hm ⊢; tauto
  have sub3 : ∀ m ∈ ["x", "x_dot", "z_dot"], m ∈ ["x", "x_dot", "z", "z_dot", "theta"] := by intro m hm; simp at hm ⊢; tauto
  have inside : ∀ i j, i < n → j < t.stages → i * (t.stages - 1) + j ≤ n * (t.stages - 1) := by
    intro i j hi hj
    calc i * (t.stages - 1) + j ≤ i * (t.stages - 1) + (t.stages - 1) := by omega
      _ = (i + 1) * (t.stages - 1) := by ring
      _ ≤ n * (t.stages - 1) := Nat.mul_le_mul_right _ hi
  refine ⟨?_, ?_, ?_, ?_, ?_, ?_, ?_, ?_, ?_, ?_, ?_, ?_, ?_, ?_, ?_, h.duration⟩
  · intro s hs; rw [dt s _ hs (by simp), st s _ hs (by simp)]; exact h.velX s hs
  · intro s hs; rw [dt s _ hs (by simp), st s _ hs (by simp), ip s _ hs (by simp)]; exact h.accX s hs
  · intro s hs; rw [dt s _ hs (by simp), st s _ hs (by simp)]; exact h.velZ s hs
  · intro s hs; rw [dt s _ hs (by simp), st s _ hs (by simp), ip s _ hs (by simp)]; exact h.accZ s hs
  · intro s hs; rw [dt s _ hs (by simp), ip s _ hs (by simp)]; exact h.turn s hs
  · intro s hs; rw [oy s hs, st s _ hs (by simp)]; exact h.output s hs
  · intro i hi m hm
    exact Steps.congr (fun j hj => (st _ m (inside i j hi hj) hm).symm) (fun j hj => (dt _ m (inside i j hi hj) hm).symm) (h.steps i hi m hm)
  · intro s hs m hm; rw [st s m hs (sub4 m hm)]; exact h.box s hs m hm
  · intro s hs; rw [st s _ hs (by simp)]; exact h.angle s hs
  · intro s hs; rw [ip s _ hs (by simp)]; exact h.thrust s hs
  · intro s hs; rw [ip s _ hs (by simp)]; exact h.rate s hs
  · intro m hm; rw [st 0 m (Nat.zero_le _) hm]; exact h.start m hm
  · intro m hm; rw [st _ m (le_refl _) (sub3 m hm)]; exact h.finish m hm
  · rw [st _ _ (le_refl _) (by simp)]; exact h.height
  · rw [st _ _ (le_refl _) (by simp)]; exact h.flip

theorem drone_trapezoidal (g : ℝ) {n : Nat} (hn : 1 ≤ n) : ∃ S b, droneSetup g "Trapezoidal" [] n none = .ok S ∧ S.build = .ok b :=
  (C77_construct g "Trapezoidal" [] hn none).mpr ⟨.trapezoidal, _, C38_low_order.2.2.1, rfl⟩

/-- **C77** (finding). With two to 39 intervals of the trapezoidal rule the problem has feasible points that do no flip: the drone goes
straight up without tilting at any stage, and its attitude jumps by a full turn in the last interval. -/
theorem C77_flip_without_tilting {g : ℝ} (hg : 8 ≤ g ∧ g ≤ 12) {n : Nat} (hn : 2 ≤ n) (hn' : n ≤ 39) :
    ∃ S b x, droneSetup g "Trapezoidal" [] n none = .ok S ∧ S.build = .ok b ∧ x.length = S.c.o.L.numDec ∧
      b.Feasible (vdiv x b.prob.scales) ∧ Within b.bounds.lb b.bounds.ub x ∧
      ∀ s, s < S.c.o.L.numStages → readAt S.c.o.L x "states" "x" s = 0 ∧ Real.sin (readAt S.c.o.L x "states" "theta" s) = 0 ∧
        Real.cos (readAt S.c.o.L x "states" "theta" s) = 1 ∧ (s + 1 < S.c.o.L.numStages → readAt S.c.o.L x "inputs" "omega" s = 0) := by
  obtain ⟨S, b, hS, hb⟩ := drone_trapezoidal g (show 1 ≤ n by omega)
  obtain ⟨t, b', ht, hb', hp⟩ := C77_problem (by omega) hS
  rw [hb, Except.ok.injEq] at hb'
  subst hb'
  rw [C38_low_order.2.2.1, Except.ok.injEq] at ht
  subst ht
  obtain ⟨t', ht', hm, _⟩ := drone_made (by omega) hS
  rw [C38_low_order.2.2.1, Except.ok.injEq] at ht'
  subst ht'
  obtain ⟨x, h1, h2, h3⟩ := hm.point (drone_good (by omega) hS).cond (flipValue g (50 / 39) n) (n * (50 / 39))
  have hst : Transcription.trapezoidal.stages - 1 = 1 := rfl
  have hN := hm.stages
  rw [hst, mul_one] at hN
  have val : ∀ s grp m, s ≤ n * (Transcription.trapezoidal.stages - 1) → ((grp = "states" ∧ m ∈ (droneModel g).states) ∨
      (grp = "inputs" ∧ m ∈ (droneModel g).inputs) ∨ (grp = "states_dot" ∧ m ∈ (droneModel g).states) ∨
      (grp = "con_outputs" ∧ m ∈ (droneModel g).conOutputs)) → readAt S.c.o.L x grp m s = flipValue g (50 / 39) n grp m s := by
    intro s grp m hs hv
    refine h3 s grp m ?_
    rw [hm.layout, isVar_iff, ← hm.layout]
    refine ⟨?_, hv⟩
    rw [hst, mul_one] at hs
    omega
  have fl := (flip_flight hg rfl hn hn').congr (by decide) (w := fun grp m s => readAt S.c.o.L x grp m s) val
  rw [← h2] at fl
  obtain ⟨f1, f2⟩ := (hp x h1).1.mpr fl
  refine ⟨S, b, x, hS, hb, h1, f1, f2, ?_⟩
  intro s hs
  have hs' : s ≤ n * (Transcription.trapezoidal.stages - 1) := by rw [hst, mul_one]; omega
  have th : readAt S.c.o.L x "states" "theta" s = if s = n then 2 * Real.pi else 0 := by
    rw [val s _ _ hs' (Or.inl ⟨rfl, by simp [droneModel]⟩)]; simp [flipValue]
  refine ⟨?_, ?_, ?_, ?_⟩
  · rw [val s _ _ hs' (Or.inl ⟨rfl, by simp [droneModel]⟩)]; simp [flipValue]
  · rw [th]; split <;> simp
  · rw [th]; split <;> simp
  · intro hs2
    rw [val s _ _ hs' (Or.inr (Or.inl ⟨rfl, by simp [droneModel]⟩))]
    have : s ≠ n := by omega
    simp [flipValue, this]

/-- The hypotheses of the theorems above are met: the default problem of 99 trapezoidal intervals, and one of two intervals that has
feasible points. -/
example : (∃ S b, droneSetup 9.81 "Trapezoidal" [] 99 none = .ok S ∧ S.build = .ok b) ∧
    ∃ S b x, droneSetup 9.81 "Trapezoidal" [] 2 none = .ok S ∧ S.build = .ok b ∧ x.length = S.c.o.L.numDec ∧
      b.Feasible (vdiv x b.prob.scales) ∧ Within b.bounds.lb b.bounds.ub x := by
  refine ⟨drone_trapezoidal _ (by norm_num), ?_⟩
  obtain ⟨S, b, x, h1, h2, h3, h4, h5, _⟩ := C77_flip_without_tilting (g := 9.81) (by norm_num) (n := 2) (le_refl _) (by norm_num)
  exact ⟨S, b, x, h1, h2, h3, h4, h5⟩

end Lumos.Sim
