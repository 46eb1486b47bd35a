import Verif.Lap.Guess
/-!
# C70: the default bounds and boundary conditions, and the initial guess
-/

namespace Lumos.LapSim

open Lumos DecVar DecVar.Layout Bounds Ocp Track Io NLP

/-- **C70**: every default bound is accepted by `BoundConfig` (C19), whatever the order in which they are given. -/
theorem C70_defaults_valid : ∀ c ∈ defaultBounds, BoundConfig.make c.group c.name c.lb c.ub = .ok c := by
  have pi := Real.pi_pos
  have two : ∀ (g n : String) (a b : ℝ), a ≤ b → BoundConfig.make (bound g n a b).group (bound g n a b).name (bound g n a b).lb (bound g n a b).ub
      = .ok (bound g n a b) := by
    intro g n a b h
    simp only [bound, BoundConfig.make]
    rw [if_pos (EReal.coe_le_coe_iff.mpr h)]
  intro c hc
  simp only [defaultBounds, corners, List.mem_append, List.mem_map, List.mem_cons, List.not_mem_nil, or_false] at hc
  rcases hc with (((rfl | rfl | rfl | rfl | rfl | rfl | rfl | rfl) | ⟨c, _, rfl⟩) | ⟨c, _, rfl⟩) | ⟨c, _, rfl⟩
  · simp [BoundConfig.make]
  all_goals exact two _ _ _ _ (by linarith)

/-- A full name determines the group and the variable if the group has no dot. -/
theorem fullName_cancel {g n g' n' : String} (hg : Dotless g) (hg' : Dotless g') (h : fullName g n = fullName g' n') : g = g' ∧ n = n' := by
  have e : g.toList ++ '.' :: n.toList = g'.toList ++ '.' :: n'.toList := by
    have := congrArg String.toList h
    simpa [fullName, String.toList_append] using this
  have key : ∀ a b a' b' : List Char, '.' ∉ a → '.' ∉ a' → a ++ '.' :: b = a' ++ '.' :: b' → a = a' ∧ b = b' := by
    intro a
    induction a with
    | nil =>
      intro b a' b' _ ha' he
      cases a' with
      | nil => simpa using he
      | cons c cs =>
        simp only [List.nil_append, List.cons_append, List.cons.injEq] at he
        exact absurd (by rw [he.1]; simp) ha'
    | cons c cs ih =>
      intro b a' b' ha ha' he
      cases a' with
      | nil =>
        simp only [List.nil_append, List.cons_append, List.cons.injEq] at he
        exact absurd (by rw [he.1]; simp) ha
      | cons c' cs' =>
        simp only [List.cons_append, List.cons.injEq] at he
        simp only [List.mem_cons, not_or] at ha ha'
        obtain ⟨e1, e2⟩ := ih b cs' b' ha.2 ha'.2 he.2
        exact ⟨by rw [he.1, e1], e2⟩
  obtain ⟨e1, e2⟩ := key _ _ _ _ hg hg' e
  exact ⟨String.toList_injective e1, String.toList_injective e2⟩

/-- A request allows the value `a` for the variable `v`. -/
def Allows (r : Req EReal) (v : Var) (a : ℝ) : Prop :=
  ∃ lo hi, r.arg.lb.at (r.slot v) = some lo ∧ r.arg.ub.at (r.slot v) = some hi ∧ lo ≤ (a : EReal) ∧ (a : EReal) ≤ hi

/-- The values of the guess for the states and inputs, except the time and what the track sets. -/
noncomputable def guessOf (g n : String) : ℝ := if g = "states" then guessState n else 0

theorem default_allows {c : BoundConfig EReal} (hc : c ∈ defaultBounds) {g n : String} (hg : g = "states" ∨ g = "inputs")
    (h : fullName c.group c.name = fullName g n) {a : ℝ} (ha : 0 ≤ a) (hne : n ≠ "time" → a = guessOf g n) (s : Nat) :
    Allows c.req (.stage s g n) a := by
  have pi := Real.pi_pos
  have dg : Dotless g := by rcases hg with rfl | rfl <;> decide
  have dc : Dotless c.group := by
    simp only [defaultBounds, corners, List.mem_append, List.mem_map, List.mem_cons, List.not_mem_nil, or_false] at hc
    rcases hc with (((rfl | rfl | rfl | rfl | rfl | rfl | rfl | rfl) | ⟨c, _, rfl⟩) | ⟨c, _, rfl⟩) | ⟨c, _, rfl⟩ <;>
      · simp only [bound]; decide
  obtain ⟨rfl, rfl⟩ := fullName_cancel dc dg h
  have two : ∀ (x y : ℝ) (g' n' : String), x ≤ a → a ≤ y → Allows (bound g' n' x y).req (.stage s g' n') a := by
    intro x y g' n' h1 h2
    exact ⟨_, _, rfl, rfl, EReal.coe_le_coe_iff.mpr h1, EReal.coe_le_coe_iff.mpr h2⟩
  simp only [defaultBounds, corners, List.mem_append, List.mem_map, List.mem_cons, List.not_mem_nil, or_false] at hc
  rcases hc with (((rfl | rfl | rfl | rfl | rfl | rfl | rfl | rfl) | ⟨c, hc, rfl⟩) | ⟨c, hc, rfl⟩) | ⟨c, hc, rfl⟩
  · exact ⟨_, _, rfl, rfl, EReal.coe_le_coe_iff.mpr ha, le_top⟩
  · have := hne (by simp [bound]); simp [guessOf, guessState, bound] at this; subst this; exact two _ _ _ _ (by linarith) (by linarith)
  · have := hne (by simp [bound]); simp [guessOf, guessState, bound] at this; subst this; exact two _ _ _ _ (by linarith) (by linarith)
  · have := hne (by simp [bound]); simp [guessOf, guessState, bound] at this; subst this; exact two _ _ _ _ (by linarith) (by linarith)
  · have := hne (by simp [bound]); simp [guessOf, guessState, bound] at this; subst this; exact two _ _ _ _ (by linarith) (by linarith)
  · have := hne (by simp [bound]); simp [guessOf, guessState, bound] at this; subst this; exact two _ _ _ _ (by linarith) (by linarith)
  · have := hne (by simp [bound]); simp [guessOf, guessState, bound] at this; subst this; exact two _ _ _ _ (by linarith) (by linarith)
  · have := hne (by simp [bound]); simp [guessOf, guessState, bound] at this; subst this; exact two _ _ _ _ (by linarith) (by linarith)
  · have : a = 50 / 0.33 := by
      rcases hc with rfl | rfl | rfl | rfl <;> exact (hne (by simp [bound])).trans (by simp [guessOf, guessState, bound])
    subst this; exact two _ _ _ _ (by norm_num) (by norm_num)
  · rcases hg with hg | hg <;> simp [bound] at hg
  · rcases hg with hg | hg <;> simp [bound] at hg

theorem defaultBC_allows {cyc : Bool} {c : BC EReal} (hc : c ∈ defaultBCs cyc) {L : Layout} {g n : String} (hg : g = "states" ∨ g = "inputs")
    {s : Nat} (hs : s < L.numStages) (h : c.req.Mentions L (.stage s g n)) {a : ℝ} (hne : n ≠ "time" → a = guessOf g n)
    (ht : s = 0 → n = "time" → a = 0) : Allows c.req (.stage s g n) a ∧ g = "states" := by
  have dg : Dotless g := by rcases hg with rfl | rfl <;> decide
  have hc' : c ∈ defaultBCs false := by
    cases cyc with
    | false => exact hc
    | true => simp only [defaultBCs, if_true, List.mem_singleton] at hc; simp [defaultBCs, hc]
  simp only [defaultBCs, Bool.false_eq_true, if_false, List.mem_cons, List.not_mem_nil, or_false] at hc'
  obtain ⟨_, hn, hst⟩ := h
  have one : ∀ (n' : String) (x : ℝ), a = x → Allows (fixAt 0 "states" n' x).req (.stage s "states" n') a := by
    intro n' x h1
    exact ⟨_, _, rfl, rfl, by rw [h1], by rw [h1]⟩
  rcases hc' with rfl | rfl | rfl | rfl | rfl | rfl <;>
    obtain ⟨rfl, rfl⟩ := fullName_cancel (by simp only [BC.req, fixAt]; decide) dg hn <;>
    refine ⟨?_, rfl⟩
  · have s0 : s = 0 := by simp [BC.req, fixAt] at hst; omega
    exact one _ _ (ht s0 rfl)
  all_goals exact one _ _ ((hne (by simp [BC.req, fixAt])).trans (by simp [guessOf, guessState, BC.req, fixAt]))

theorem lastMention_mem {L : Layout} {rs : List (Req EReal)} {v : Var} {r : Req EReal} (h : lastMention L rs v = some r) :
    r ∈ rs ∧ r.Mentions L v := by
  unfold lastMention at h
  exact ⟨List.mem_reverse.mp (List.mem_of_find?_eq_some h), by simpa using List.find?_some h⟩

theorem totalDistance_nonneg {x y : List ℝ} {l r : Option (List ℝ)} {t : RaceTrack} (h : RaceTrack.fromCartesian x y l r = .ok t) :
    0 ≤ t.totalDistance := by
  obtain ⟨h1, h2, h3, _⟩ := C63_distance h
  obtain ⟨e1, e2, _⟩ := cartesian_inv h
  have key : ∀ k (hk : k < t.s.length), 0 ≤ t.s[k] := by
    intro k
    induction k with
    | zero =>
      intro hk
      rw [List.getElem?_eq_getElem hk, Option.some.injEq] at h2
      rw [h2]
    | succ k ih =>
      intro hk
      have := h3 k (by omega) (by omega) hk
      have h0 := Real.sqrt_nonneg ((x[k + 1]'(by omega) - x[k]'(by omega)) ^ 2 + (y[k + 1]'(by omega) - y[k]'(by omega)) ^ 2)
      have := ih (by omega)
      linarith
  unfold RaceTrack.totalDistance
  rw [at_eq (by omega)]
  exact key _ (by omega)

theorem orRaise_inv {σ : Type} {p : σ × Option PyErr} {a : σ} (h : orRaise p = .ok a) : p = (a, none) := by
  obtain ⟨b, o⟩ := p
  cases o with
  | none => simp only [orRaise, Except.ok.injEq] at h; rw [h]
  | some e => simp [orRaise] at h

theorem setTrack_inv {l l' : Lap} {file : Py (List Row)} (h : l.setTrack file = (l', none)) :
    ∃ t, fromTumCsv file = .ok t ∧ l'.track = some t ∧ l'.S = rescale l.S t.totalDistance := by
  unfold Lap.setTrack at h
  cases hf : fromTumCsv file with
  | error e => rw [hf] at h; simp at h
  | ok t =>
    rw [hf] at h
    dsimp only at h
    split at h
    · simp at h
    · simp only [Prod.mk.injEq] at h
      obtain ⟨rfl, _⟩ := h
      exact ⟨t, rfl, rfl, rfl⟩

/-- **C70**: with the default bounds and boundary conditions, for an open or a closed lap, on any track whose sides contain the
centre line at the mesh points, the states and inputs of the initial guess are within the bounds. -/
theorem C70_within {S : Setup} {D : List ℝ → ℝ → Prop} (hS : (start S).Good D) (hcd : S.isCondensed = false) (hb : S.bounds = defaultBounds) {cyc : Bool}
    (hbc : S.bcs = defaultBCs cyc) {file : Py (List Row)} {l : Lap} (hm : Lap.make S file = .ok l) {t : RaceTrack} (hg : Guessable l t)
    (hn : "n" ∈ S.c.M.states) (hmono : ∀ s, s < S.c.o.L.numStages → S.c.mesh.getD 0 0 ≤ S.c.mesh.getD s 0)
    (hsides : ∀ d ∈ S.c.mesh, ∃ a b, t.leftDistanceAt (d * t.totalDistance) = .ok a ∧ t.rightDistanceAt (d * t.totalDistance) = .ok b ∧
      0 ≤ a ∧ 0 ≤ b) {x : List ℝ} (hx : l.initGuess = .ok x)
    {s i : Nat} {g n : String} (hv : S.c.o.L.IsVar (.stage s g n)) (hgn : g = "states" ∨ g = "inputs")
    (hq : S.c.o.L.query (.stage s g n) = .ok (.scalar i)) :
    ∃ lo hi, l.st.lb[i]? = some lo ∧ l.st.ub[i]? = some hi ∧ lo ≤ ((readAt S.c.o.L x g n s : ℝ) : EReal) ∧
      ((readAt S.c.o.L x g n s : ℝ) : EReal) ≤ hi := by
  obtain ⟨x', hx', hlen, hrow⟩ := C70_guess hg
  rw [hx, Except.ok.injEq] at hx'
  subst hx'
  have hsame : ∃ t', fromTumCsv file = .ok t' ∧ l.track = some t' ∧ l.S = rescale (start S) t'.totalDistance := by
    unfold Lap.make at hm
    simp only [bind, Except.bind] at hm
    split at hm
    · cases hm
    · exact setTrack_inv (orRaise_inv hm)
  obtain ⟨t', hf, ht', hlS⟩ := hsame
  have := hg.track
  rw [ht', Option.some.injEq] at this
  obtain rfl : t = t' := this.symm
  have eL : l.S.c.o.L = S.c.o.L := by rw [hlS]; rfl
  have eM : l.S.c.M = S.c.M := by rw [hlS]; rfl
  have emesh : l.S.c.mesh = S.c.mesh := by rw [hlS]; rfl
  have h1 := hg.stateNames
  have h2 := hg.inputNames
  have h3 := hg.curvature
  have h4 := hg.heading
  rw [eL, eM] at h1 h2
  rw [eM] at h3 h4
  obtain ⟨b, hbuild, hready, hcons⟩ := C69_construct hS (by rw [h2]; exact h3) (by rw [h2]; exact h4) (by rw [h1]; exact hn) file
  have hst : Lap.setTrack ⟨start S, b.bounds, none⟩ file = (l, none) := by
    rcases hr : Lap.setTrack ⟨start S, b.bounds, none⟩ file with ⟨l', o⟩
    obtain ⟨k1, k2⟩ := hcons l' o hr
    cases o with
    | none =>
      have := k1 rfl
      rw [hm, Except.ok.injEq] at this
      rw [this]
    | some e =>
      have := k2 e rfl
      rw [hm] at this
      cases this
  obtain ⟨t', hf', _, _, _, hbounds⟩ := C69_bounds hready hst
  rw [hf, Except.ok.injEq] at hf'
  subst hf'
  have hs : s < S.c.o.L.numStages := hv.1
  rw [eL, eM, emesh] at hrow
  have hrow0 := hrow 0 (numStages_pos _)
  obtain ⟨r1, r2, r3, r4, r5, _⟩ := hrow s hs
  have hmd : S.c.mesh[s]? = some (S.c.mesh.getD s 0) := by
    have hp : S.c.mesh.length = S.c.o.L.numStages := hready.points
    rw [List.getD_eq_getElem?_getD, List.getElem?_eq_getElem (by omega)]
    rfl
  have hdmesh : (S.c.mesh.map (· * t.totalDistance))[s]? = some (S.c.mesh.getD s 0 * t.totalDistance) := by
    rw [List.getElem?_map, hmd]; rfl
  have hdist : 0 ≤ t.totalDistance := by
    obtain ⟨rows, _, _, hc⟩ := fromTumCsv_inv hf
    exact totalDistance_nonneg hc
  have htime : 0 ≤ readAt S.c.o.L x "states" "time" s := by
    rw [r1]
    exact div_nonneg (mul_nonneg (sub_nonneg.mpr (hmono s hs)) hdist) (by norm_num)
  -- the value of the variable
  obtain ⟨q1, q2⟩ := hbounds _ i hv hq
  have hnn : n ∈ S.c.o.L.namesOf g := by
    obtain ⟨_, _, ns, e1, e2⟩ := hv
    simpa [namesOf, e1] using e2
  have hval : ¬IsTrackVar (.stage s g n) → 0 ≤ readAt S.c.o.L x g n s ∧ (n ≠ "time" → readAt S.c.o.L x g n s = guessOf g n) := by
    intro hT
    rcases hgn with rfl | rfl
    · rw [h1] at hnn
      by_cases hti : n = "time"
      · subst hti
        exact ⟨htime, fun h => absurd rfl h⟩
      · have := r2 n hnn hti
        refine ⟨?_, fun _ => by rw [this]; simp [guessOf]⟩
        rw [this]
        unfold guessState
        split_ifs <;> norm_num
    · rw [h2] at hnn
      have := r5 n hnn (fun e => hT (Or.inl ⟨rfl, Or.inl e⟩)) (fun e => hT (Or.inl ⟨rfl, Or.inr e⟩))
      exact ⟨by rw [this], fun _ => by rw [this]; simp [guessOf]⟩
  have hbcs : b.bounds.bcs = S.bcs := by
    obtain ⟨b', o, s', g1, _, _, _, _, _, _, _, g2, g3, _⟩ := build_ok hS
    rw [hbuild, Except.ok.injEq] at g1
    subst g1
    have := run_bcs (start S).c.o.L s' (.updateBCs (start S).bcs)
    simp only [Call.run, g3, givenBCs, List.append_nil] at this
    have hs' : s'.bcs = [] := by
      have := updateBounds_bcs (start S).c.o.L (Bounds.fresh (start S).c.o.L) ((start S).allBounds ((start S).c.o.L.namesOf "states_dot"))
      rw [g2] at this
      exact this
    rw [this, hs']
    rfl
  rw [show (Lap.mk (start S) b.bounds none).st.bcs = S.bcs from hbcs] at q1 q2
  have q1 : ∀ r, lastMention S.c.o.L (S.bcs.map BC.req) (.stage s g n) = some r → l.st.lb[i]? = r.arg.lb.at (r.slot (.stage s g n)) ∧
    l.st.ub[i]? = r.arg.ub.at (r.slot (.stage s g n)) := q1
  cases hl : lastMention S.c.o.L (S.bcs.map BC.req) (.stage s g n) with
  | some r =>
    obtain ⟨e1, e2⟩ := q1 r hl
    obtain ⟨m1, m2⟩ := lastMention_mem hl
    rw [hbc, List.mem_map] at m1
    obtain ⟨c, hc, rfl⟩ := m1
    have hT0 : (n ≠ "time" → readAt S.c.o.L x g n s = guessOf g n) ∧ (s = 0 → n = "time" → readAt S.c.o.L x g n s = 0) := by
      constructor
      · intro hne
        by_cases hT : IsTrackVar (.stage s g n)
        · rcases hT with ⟨rfl, hT⟩ | ⟨rfl, rfl⟩
          · -- no boundary condition addresses an input
            exfalso
            obtain ⟨_, hsn, _⟩ := m2
            have hcg : c.group = "states" := by
              have hc' : c ∈ defaultBCs false := by
                cases cyc with
                | false => exact hc
                | true => simp only [defaultBCs, if_true, List.mem_singleton] at hc; simp [defaultBCs, hc]
              simp only [defaultBCs, Bool.false_eq_true, if_false, List.mem_cons, List.not_mem_nil, or_false] at hc'
              rcases hc' with rfl | rfl | rfl | rfl | rfl | rfl <;> rfl
            have := (fullName_cancel (g := c.req.group) (by show Dotless c.group; rw [hcg]; decide) (by decide) hsn).1
            have hcg' : c.req.group = "states" := hcg
            rw [hcg'] at this
            exact absurd this (by decide)
          · rw [r2 "n" (by rwa [h1] at hnn) (by decide)]
            simp [guessOf]
        · exact (hval hT).2 hne
      · intro hs0 hti
        subst hs0 hti
        rcases hgn with rfl | rfl
        · rw [r1]; simp
        · rw [h2] at hnn
          rw [r5 "time" hnn (by decide) (by decide)]
    obtain ⟨⟨lo, hi, f1, f2, f3, f4⟩, _⟩ := defaultBC_allows hc hgn hs m2 hT0.1 hT0.2
    exact ⟨lo, hi, e1.trans f1, e2.trans f2, f3, f4⟩
  | none =>
    obtain ⟨p1, p2⟩ := q2 hl
    by_cases hT : IsTrackVar (.stage s g n)
    · obtain ⟨lo, hi, hlim, e1, e2⟩ := p1 hT
      refine ⟨lo, hi, e1, e2, ?_⟩
      have hlim : Limits t (S.c.mesh.map (· * t.totalDistance)) (.stage s g n) lo hi := hlim
      rcases hT with ⟨rfl, rfl | rfl⟩ | ⟨rfl, rfl⟩
      · obtain ⟨d, c, d1, d2, rfl, rfl⟩ := hlim.at_curvature
        rw [hdmesh, Option.some.injEq] at d1
        subst d1
        rw [r3, Except.ok.injEq] at d2
        rw [d2]
        exact ⟨le_rfl, le_rfl⟩
      · obtain ⟨d, c, d1, d2, rfl, rfl⟩ := hlim.at_heading
        rw [hdmesh, Option.some.injEq] at d1
        subst d1
        rw [r4, Except.ok.injEq] at d2
        rw [d2]
        exact ⟨le_rfl, le_rfl⟩
      · obtain ⟨d, a, c, d1, d2, d3, rfl, rfl⟩ := hlim.at_lateral
        rw [hdmesh, Option.some.injEq] at d1
        subst d1
        obtain ⟨a', b', f1, f2, f3, f4⟩ := hsides _ (List.mem_of_getElem? hmd)
        rw [d2, Except.ok.injEq] at f1
        rw [d3, Except.ok.injEq] at f2
        subst f1 f2
        rw [r2 "n" (by rwa [h1] at hnn) (by decide)]
        simp only [guessState]
        constructor
        · exact EReal.coe_le_coe_iff.mpr (by simpa using f4)
        · exact EReal.coe_le_coe_iff.mpr (by simpa using f3)
    · obtain ⟨e1, e2⟩ := p2 hT
      obtain ⟨k1, k2, k3⟩ := C48_bounds hS hbuild hv hq
      obtain ⟨v1, v2⟩ := hval hT
      have e1 : l.st.lb[i]? = b.bounds.lb[i]? := e1
      have e2 : l.st.ub[i]? = b.bounds.ub[i]? := e2
      have hl' : lastMention (start S).c.o.L ((start S).bcs.map BC.req) (.stage s g n) = none := hl
      rw [if_neg (by show ¬S.isCondensed = true; simp [hcd]), List.append_nil] at k3
      have k3 : b.configBounds = defaultBounds := k3.trans hb
      rw [hl', k3] at k1 k2
      dsimp only at k1 k2
      cases hlm : lastMention (start S).c.o.L (defaultBounds.map BoundConfig.req) (.stage s g n) with
      | none =>
        rw [hlm] at k1 k2
        exact ⟨_, _, e1.trans k1, e2.trans k2, bot_le, le_top⟩
      | some r =>
        rw [hlm] at k1 k2
        obtain ⟨m1, m2⟩ := lastMention_mem hlm
        obtain ⟨c, hc, rfl⟩ := List.mem_map.mp m1
        obtain ⟨lo, hi, f1, f2, f3, f4⟩ := default_allows hc hgn m2.2.1 v1 v2 s
        exact ⟨lo, hi, (e1.trans k1).trans f1, (e2.trans k2).trans f2, f3, f4⟩

end Lumos.LapSim
