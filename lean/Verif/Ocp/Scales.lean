import Verif.Bounds.Props
import Verif.NLP.CompositeProps
/-!
# Variable and constraint scales of the OCP (scaled_mesh_ocp.py:640-722) and property C32
-/

namespace Lumos.Ocp

open Lumos DecVar DecVar.Layout Bounds NLP

/-! ## Model -/

/-- `ScaleConfig` (config.py:45-54); the value is not checked. -/
structure ScaleConfig where
  group : String
  name : String
  value : ℝ

/-- The two things `set_scales` fills in its loop: the dictionary `var_scales` and the array
`_dec_var_scales` (scaled_mesh_ocp.py:661-676). -/
structure ScaleSt where
  var : List (String × List ℝ)
  dec : List ℝ

/-- The defaults (scaled_mesh_ocp.py:661-669): ones for every implicit input group of the model, for the globals and
for all decision variables. `self.model._implicit_inputs` is what the operator was built with (line 108). -/
noncomputable def initScales (L : Layout) : ScaleSt :=
  ⟨L.groups.map (fun g => (g, List.replicate (L.size g) 1)) ++ [("global", List.replicate L.numGlobal 1)],
   List.replicate L.numDec 1⟩

/-- `d[g][i] = v` on a dictionary of arrays. -/
def writeVar (d : List (String × List ℝ)) (g : String) (i : Nat) (v : ℝ) : List (String × List ℝ) :=
  d.map fun p => if p.1 = g then (p.1, p.2.set i v) else p

/-- One round of the loop (scaled_mesh_ocp.py:672-676): `var_scales[group]` raises KeyError for an unknown group. -/
noncomputable def scaleStep (L : Layout) (s : ScaleSt) (c : ScaleConfig) : ScaleSt × Option PyErr :=
  match s.var.lookup c.group with
  | none => (s, some .keyError)
  | some _ =>
    match L.indexInGroup c.group c.name with
    | .error e => (s, some e)
    | .ok i =>
      let s1 : ScaleSt := { s with var := writeVar s.var c.group i c.value }
      match L.indexInDec c.group c.name none with
      | .error e => (s1, some e)
      | .ok idx => ({ s1 with dec := setMany s1.dec ((positions idx).map fun i => (i, c.value)) }, none)

/-- The loop (scaled_mesh_ocp.py:672-676). -/
noncomputable def scaleLoop (L : Layout) (s : ScaleSt) : List ScaleConfig → ScaleSt × Option PyErr
  | [] => (s, none)
  | c :: cs =>
    match scaleStep L s c with
    | (s', some e) => (s', some e)
    | (s', none) => scaleLoop L s' cs

/-- `var_scales[g]` for the groups `states` and `con_outputs`, which every model has. -/
noncomputable def ScaleSt.get (s : ScaleSt) (g : String) : List ℝ := (s.var.lookup g).getD []

/-- `continuity_scales` (scaled_mesh_ocp.py:687-692): `np.tile` of the state scales. -/
noncomputable def continuityScales (L : Layout) (s : ScaleSt) : List ℝ :=
  (List.range L.numIntervals).flatMap fun _ => (List.range (L.nspi - 1)).flatMap fun _ => s.get "states"

/-- `set_scales` (scaled_mesh_ocp.py:640-722). `nr` is `model.num_residuals`. The attribute `_dec_var_scales` is
assigned before the loop, so an exception in the loop leaves the partially filled array in place. -/
noncomputable def setScales (L : Layout) (nr : Nat) (condensed : Bool) (p : Prob) (cfgs : List ScaleConfig) :
    Prob × Option PyErr :=
  match scaleLoop L (initScales L) cfgs with
  | (s, some e) => ({ p with scales := s.dec }, some e)
  | (s, none) =>
    match p.setScales s.dec with
    | (p1, some e) => (p1, some e)
    | (p1, none) =>
      let cont := continuityScales L s
      let rest := s.get "con_outputs" ++ List.replicate nr 1
      if condensed then
        p1.setConScales "model_algebra" (cont ++ (List.replicate L.numStages rest).flatten)
      else
        match p1.setConScales "model_algebra" (List.replicate L.numStages (s.get "states" ++ rest)).flatten with
        | (p2, some e) => (p2, some e)
        | (p2, none) => p2.setConScales "continuity" cont

/-! ## Specification -/

/-- The scale a user asked for: the value of the last config for the variable, 1 if there is none. -/
noncomputable def askedScale (cfgs : List ScaleConfig) (g n : String) : ℝ :=
  match cfgs.reverse.find? (fun c => c.group == g && c.name == n) with
  | some c => c.value
  | none => 1

/-- The group a variable is addressed by. -/
def Var.group : Var → String
  | .stage _ g _ => g
  | .glob _ => "global"

def Var.name : Var → String
  | .stage _ _ n => n
  | .glob n => n

/-- A config names a variable of the problem. -/
def ScaleConfig.Known (L : Layout) (c : ScaleConfig) : Prop :=
  (c.group ∈ L.groups ∧ c.name ∈ L.namesOf c.group) ∨ (c.group = "global" ∧ c.name ∈ L.globals)

/-! ## Proofs -/

theorem fullName_inj {L : Layout} (h : L.Made) {g n g' n' : String} (h1 : L.IsVar (.stage 0 g n))
    (h2 : L.IsVar (.stage 0 g' n')) (e : fullName g n = fullName g' n') : g = g' ∧ n = n' := by
  have hg : g ≠ "global" := fun e => h.reserved (e ▸ h1.2.1)
  have hg' : g' ≠ "global" := fun e => h.reserved (e ▸ h2.2.1)
  have : L.query (.stage 0 g n) = L.query (.stage 0 g' n') := by
    simp only [Layout.query, indexInDec, if_neg hg, if_neg hg', e]
  have := C01_index_injective h h1 h2 this
  simpa using this

/-- A value function `f` (group, name ↦ scale) describes the state of the loop. -/
structure Describes (L : Layout) (s : ScaleSt) (f : String → String → ℝ) : Prop where
  len : s.dec.length = L.numDec
  dec : ∀ v i, L.IsVar v → L.query v = .ok (.scalar i) → s.dec[i]? = some (f (Var.group v) (Var.name v))
  keys : s.var.map Prod.fst = L.groups ++ ["global"]
  stage : ∀ g ∈ L.groups, ∀ vs, (g, vs) ∈ s.var → vs = (L.namesOf g).map (f g)
  glob : ∀ vs, ("global", vs) ∈ s.var → vs = L.globals.map (f "global")

theorem numStages_pos (L : Layout) : 0 < L.numStages := by unfold numStages; omega

theorem isVar_of_known {L : Layout} (h : L.Made) {g n : String} (hg : g ∈ L.groups) (hn : n ∈ L.namesOf g) (s : Nat)
    (hs : s < L.numStages) : L.IsVar (.stage s g n) := by
  have hl : (L.names.lookup g).isSome := by
    obtain ⟨h1, _⟩ := make_ok h.made
    have := h.made
    unfold Layout.make at this
    dsimp only at this
    split at this
    · rename_i ha
      simp only [List.all_eq_true] at ha
      exact ha g hg
    · cases this
  obtain ⟨ns, hns⟩ := Option.isSome_iff_exists.mp hl
  exact ⟨hs, hg, ns, hns, by rw [namesOf_of_lookup hns] at hn; exact hn⟩

theorem describes_init {L : Layout} (h : L.Made) : Describes L (initScales L) (fun _ _ => 1) where
  len := by simp [initScales]
  dec := by
    intro v i hv hq
    obtain ⟨j, hj, hlt⟩ := C01_index_in_range h hv
    rw [hq] at hj
    cases hj
    simp [initScales, hlt]
  keys := by simp [initScales, Function.comp_def]
  stage := by
    intro g hg vs hm
    simp only [initScales, List.mem_append, List.mem_map, Prod.mk.injEq, List.mem_singleton] at hm
    rcases hm with ⟨g', _, rfl, rfl⟩ | ⟨rfl, _⟩
    · simp [size, List.map_const']
    · exact absurd hg h.reserved
  glob := by
    intro vs hm
    simp only [initScales, List.mem_append, List.mem_map, Prod.mk.injEq, List.mem_singleton] at hm
    rcases hm with ⟨g', hg, rfl, rfl⟩ | ⟨_, rfl⟩
    · exact absurd hg h.reserved
    · simp [numGlobal, List.map_const']

theorem lookup_isSome_iff {β : Type} (d : List (String × β)) (k : String) :
    (∃ v, d.lookup k = some v) ↔ k ∈ d.map Prod.fst := by
  induction d with
  | nil => simp
  | cons p d ih =>
    obtain ⟨a, b⟩ := p
    by_cases e : k = a
    · subst e; simp
    · have : (k == a) = false := by simpa using e
      simp only [List.lookup_cons, this, ih, List.map_cons, List.mem_cons, e, false_or]

theorem namesOf_nodup {L : Layout} (h : L.Made) {g : String} (hg : g ∈ L.groups) : (L.namesOf g).Nodup := by
  have hn := h.nodup
  unfold stageVarNames at hn
  have := (List.nodup_flatMap.mp hn).1 g hg
  exact List.Nodup.of_map _ this

theorem globals_nodup {L : Layout} (h : L.Made) : L.globals.Nodup := by
  have := h.made
  unfold Layout.make at this
  dsimp only at this
  split at this
  · split at this
    · split at this
      · assumption
      · cases this
    · cases this
  · cases this

theorem set_map_update (ns : List String) (hnd : ns.Nodup) (f : String → ℝ) (n : String) (hn : n ∈ ns) (v : ℝ) :
    (ns.map f).set (ns.idxOf n) v = ns.map (fun m => if m = n then v else f m) := by
  induction ns with
  | nil => simp at hn
  | cons a ns ih =>
    rw [List.nodup_cons] at hnd
    by_cases e : a = n
    · subst e
      simp only [List.idxOf_cons_self, List.map_cons, List.set_cons_zero, if_true, List.cons.injEq, true_and]
      refine List.map_congr_left fun m hm => ?_
      rw [if_neg (fun (e : m = a) => hnd.1 (e ▸ hm))]
    · have hn' : n ∈ ns := by
        rcases List.mem_cons.mp hn with h | h
        · exact absurd h.symm e
        · exact h
      rw [List.idxOf_cons_ne _ e]
      simp only [List.map_cons, List.set_cons_succ, if_neg e, ih hnd.2 hn']

/-- What one accepted or rejected config does. -/
theorem scaleStep_spec {L : Layout} (h : L.Made) {s : ScaleSt} {f : String → String → ℝ} (hd : Describes L s f)
    (c : ScaleConfig) :
    (c.Known L → (scaleStep L s c).2 = none ∧ Describes L (scaleStep L s c).1
        (fun g n => if g = c.group ∧ n = c.name then c.value else f g n))
      ∧ (¬ c.Known L → (scaleStep L s c) = (s, some (if c.group ∈ L.groups then .valueError else .keyError))) := by
  constructor
  · intro hk
    have hkey : c.group ∈ s.var.map Prod.fst := by
      rw [hd.keys]
      rcases hk with ⟨hg, _⟩ | ⟨hg, _⟩ <;> simp [hg]
    obtain ⟨vs0, hvs0⟩ := (lookup_isSome_iff _ _).mpr hkey
    -- the two index queries succeed
    have hq : ∃ i idx, L.indexInGroup c.group c.name = .ok i ∧ L.indexInDec c.group c.name none = .ok idx
        ∧ ((c.group ∈ L.groups ∧ c.name ∈ L.namesOf c.group ∧ i = (L.namesOf c.group).idxOf c.name)
          ∨ (c.group = "global" ∧ c.name ∈ L.globals ∧ i = L.globals.idxOf c.name)) := by
      rcases hk with ⟨hg, hn⟩ | ⟨hg, hn⟩
      · have hne : c.group ≠ "global" := fun e => h.reserved (e ▸ hg)
        have hv := isVar_of_known h hg hn 0 (numStages_pos L)
        obtain ⟨_, _, ns, hns, hmem⟩ := hv
        have hfull : fullName c.group c.name ∈ L.stageVarNames := fullName_mem L hg hn
        refine ⟨ns.idxOf c.name, .array ((List.range L.numStages).map fun s =>
          L.stageVarNames.idxOf (fullName c.group c.name) + s * L.numVarStage), ?_, ?_, Or.inl ⟨hg, hn, by rw [namesOf_of_lookup hns]⟩⟩
        · simp only [indexInGroup, if_neg hne, getNames, hns, bind, Except.bind, hmem, if_true, pure, Except.pure]
        · simp only [indexInDec, if_neg hne, stageEnum, hfull, if_true, bind, Except.bind, pure, Except.pure]
      · refine ⟨L.globals.idxOf c.name, .scalar (L.numAllStageVar + L.globals.idxOf c.name), ?_, ?_,
          Or.inr ⟨hg, hn, rfl⟩⟩
        · simp only [indexInGroup, if_pos hg, globalEnum, hn, if_true, bind, Except.bind, pure, Except.pure,
            Nat.add_sub_cancel_left]
        · simp only [indexInDec, if_pos hg, globalEnum, hn, if_true, Except.map]
    obtain ⟨i, idx, hi, hidx, hcase⟩ := hq
    have e : scaleStep L s c = (⟨writeVar s.var c.group i c.value,
        setMany s.dec ((positions idx).map fun i => (i, c.value))⟩, none) := by
      simp only [scaleStep, hvs0, hi, hidx]
    rw [e]
    refine ⟨rfl, ?_, ?_, ?_, ?_, ?_⟩
    · show (setMany s.dec _).length = _
      rw [length_setMany, hd.len]
    · intro v p hv hqv
      show (setMany s.dec _)[p]? = _
      have hlt : p < s.dec.length := by
        obtain ⟨j, hj, hlt⟩ := C01_index_in_range h hv
        rw [hqv] at hj; cases hj
        rw [hd.len]; exact hlt
      have hm := positions_mentions h (V := ℝ) ⟨c.group, c.name, none, .single (.scalar c.value)⟩ hidx hv hqv
      have hiff : Req.Mentions L (⟨c.group, c.name, none, .single (.scalar c.value)⟩ : Req ℝ) v
          ↔ Var.group v = c.group ∧ Var.name v = c.name := by
        cases v with
        | stage t g n =>
          simp only [Req.Mentions, Var.group, Var.name, true_or, and_true]
          constructor
          · rintro ⟨h1, h2⟩
            rcases hcase with ⟨hg, hn, _⟩ | ⟨hg, _, _⟩
            · have hv0 : L.IsVar (.stage 0 g n) := ⟨numStages_pos L, hv.2⟩
              have := fullName_inj h (isVar_of_known h hg hn 0 (numStages_pos L)) hv0 h2
              exact ⟨this.1.symm, this.2.symm⟩
            · exact absurd hg h1
          · rintro ⟨rfl, rfl⟩
            exact ⟨fun e => h.reserved (e ▸ hv.2.1), rfl⟩
        | glob n =>
          simp only [Req.Mentions, Var.group, Var.name]
          constructor
          · rintro ⟨h1, h2⟩; exact ⟨h1.symm, h2.symm⟩
          · rintro ⟨h1, h2⟩; exact ⟨h1.symm, h2.symm⟩
      by_cases hc : Var.group v = c.group ∧ Var.name v = c.name
      · rw [if_pos hc]
        have hpos := hm.1 (hiff.mpr hc)
        refine setMany_of_mem _ _ ?_ _ _ ?_ hlt
        · simpa [Function.comp_def] using positions_nodup hidx
        · exact List.mem_map.mpr ⟨p, List.mem_of_getElem? hpos, rfl⟩
      · rw [if_neg hc]
        have hpos := hm.2 (fun hh => hc (hiff.mp hh))
        rw [setMany_of_not_mem _ _ _ (by simpa [Function.comp_def] using hpos)]
        exact hd.dec v p hv hqv
    · show (writeVar s.var c.group i c.value).map Prod.fst = _
      rw [← hd.keys, writeVar, List.map_map]
      refine List.map_congr_left fun p _ => ?_
      simp only [Function.comp]
      split <;> rfl
    · intro g hg vs hmem
      have hmem : (g, vs) ∈ writeVar s.var c.group i c.value := hmem
      simp only [writeVar, List.mem_map] at hmem
      obtain ⟨⟨g', vs'⟩, hm', he⟩ := hmem
      by_cases hgc : g' = c.group
      · simp only [hgc, if_true, Prod.mk.injEq] at he
        obtain ⟨rfl, rfl⟩ := he
        rcases hcase with ⟨_, hn, hi'⟩ | ⟨hgl, _, _⟩
        · rw [hd.stage c.group hg vs' (hgc ▸ hm'), hi', set_map_update _ (namesOf_nodup h hg) _ _ hn]
          simp
        · exact absurd (hgl ▸ hg) h.reserved
      · simp only [if_neg hgc, Prod.mk.injEq] at he
        obtain ⟨rfl, rfl⟩ := he
        rw [hd.stage g' hg vs' hm']
        simp [hgc]
    · intro vs hmem
      have hmem : ("global", vs) ∈ writeVar s.var c.group i c.value := hmem
      simp only [writeVar, List.mem_map] at hmem
      obtain ⟨⟨g', vs'⟩, hm', he⟩ := hmem
      by_cases hgc : g' = c.group
      · simp only [hgc, if_true, Prod.mk.injEq] at he
        obtain ⟨hgl, rfl⟩ := he
        rcases hcase with ⟨hg, _, _⟩ | ⟨_, hn, hi'⟩
        · exact absurd (hgl ▸ hg) h.reserved
        · have hm2 : ("global", vs') ∈ s.var := by rw [← hgl, ← hgc]; exact hm'
          rw [hd.glob vs' hm2, hi', set_map_update _ (globals_nodup h) _ _ hn]
          simp [← hgl]
      · simp only [if_neg hgc, Prod.mk.injEq] at he
        obtain ⟨rfl, rfl⟩ := he
        rw [hd.glob vs' hm']
        simp [hgc]
  · intro hk
    unfold ScaleConfig.Known at hk
    push Not at hk
    unfold scaleStep
    by_cases hg : c.group ∈ L.groups
    · obtain ⟨vs0, hvs0⟩ := (lookup_isSome_iff s.var c.group).mpr (by rw [hd.keys]; simp [hg])
      have hne : c.group ≠ "global" := fun e => h.reserved (e ▸ hg)
      have hn := hk.1 hg
      have hl : (L.names.lookup c.group).isSome := by
        have := h.made
        unfold Layout.make at this
        dsimp only at this
        split at this
        · rename_i ha
          simp only [List.all_eq_true] at ha
          exact ha _ hg
        · cases this
      obtain ⟨ns, hns⟩ := Option.isSome_iff_exists.mp hl
      rw [namesOf_of_lookup hns] at hn
      have hi : L.indexInGroup c.group c.name = .error .valueError := by
        simp only [indexInGroup, if_neg hne, getNames, hns, bind, Except.bind, hn, if_false]
      simp only [hvs0, hi, if_pos hg]
    · rw [if_neg hg]
      by_cases hgl : c.group = "global"
      · obtain ⟨vs0, hvs0⟩ := (lookup_isSome_iff s.var c.group).mpr (by rw [hd.keys]; simp [hgl])
        have hn := hk.2 hgl
        have hi : L.indexInGroup c.group c.name = .error .keyError := by
          simp only [indexInGroup, if_pos hgl, globalEnum, hn, if_false, bind, Except.bind]
        simp only [hvs0, hi]
      · have : s.var.lookup c.group = none := by
          cases hl : s.var.lookup c.group with
          | none => rfl
          | some v =>
            have := (lookup_isSome_iff s.var c.group).mp ⟨v, hl⟩
            rw [hd.keys] at this
            simp [hg, hgl] at this
        simp only [this]

/-- Scales after processing `cfgs` on top of `f`. -/
noncomputable def askedFrom (f : String → String → ℝ) (cfgs : List ScaleConfig) (g n : String) : ℝ :=
  match cfgs.reverse.find? (fun c => c.group == g && c.name == n) with
  | some c => c.value
  | none => f g n

theorem askedFrom_cons (f : String → String → ℝ) (c : ScaleConfig) (cs : List ScaleConfig) :
    askedFrom (fun g n => if g = c.group ∧ n = c.name then c.value else f g n) cs = askedFrom f (c :: cs) := by
  funext g n
  simp only [askedFrom, List.reverse_cons, List.find?_append]
  cases hf : cs.reverse.find? (fun c => c.group == g && c.name == n) with
  | some d => simp
  | none =>
    by_cases hc : g = c.group ∧ n = c.name
    · obtain ⟨rfl, rfl⟩ := hc; simp
    · have : (c.group == g && c.name == n) = false := by
        rw [Bool.eq_false_iff]
        intro h
        simp only [Bool.and_eq_true, beq_iff_eq] at h
        exact hc ⟨h.1.symm, h.2.symm⟩
      simp [this, hc]

theorem scaleLoop_ok {L : Layout} (h : L.Made) (cfgs : List ScaleConfig) {s : ScaleSt} {f : String → String → ℝ}
    (hd : Describes L s f) (hk : ∀ c ∈ cfgs, c.Known L) :
    (scaleLoop L s cfgs).2 = none ∧ Describes L (scaleLoop L s cfgs).1 (askedFrom f cfgs) := by
  induction cfgs generalizing s f with
  | nil => exact ⟨rfl, hd⟩
  | cons c cs ih =>
    obtain ⟨h1, h2⟩ := (scaleStep_spec h hd c).1 (hk c (by simp))
    have e : scaleStep L s c = ((scaleStep L s c).1, none) := by rw [← h1]
    have := ih h2 (fun d hd => hk d (by simp [hd]))
    rw [askedFrom_cons] at this
    simp only [scaleLoop]
    rw [e]
    exact this

theorem scaleLoop_error {L : Layout} (h : L.Made) (pre : List ScaleConfig) (c : ScaleConfig) (post : List ScaleConfig)
    {s : ScaleSt} {f : String → String → ℝ}
    (hd : Describes L s f) (hk : ∀ c ∈ pre, c.Known L) (hc : ¬ c.Known L) :
    (scaleLoop L s (pre ++ c :: post)).2 = some (if c.group ∈ L.groups then .valueError else .keyError)
      ∧ Describes L (scaleLoop L s (pre ++ c :: post)).1 (askedFrom f pre) := by
  induction pre generalizing s f with
  | nil =>
    have := (scaleStep_spec h hd c).2 hc
    simp only [List.nil_append, scaleLoop, this]
    exact ⟨trivial, hd⟩
  | cons c' cs ih =>
    obtain ⟨h1, h2⟩ := (scaleStep_spec h hd c').1 (hk c' (by simp))
    have e : scaleStep L s c' = ((scaleStep L s c').1, none) := by rw [← h1]
    have := ih h2 (fun d hd => hk d (by simp [hd]))
    rw [askedFrom_cons] at this
    simp only [List.cons_append, scaleLoop]
    rw [e]
    exact this

theorem goodHistory_append {A : List ℝ → Prop} (p : Prob) (os : List Op) (o : Op) (h : GoodHistory p os A)
    (ho : GoodStep (p.runAll os) o A) : GoodHistory p (os ++ [o]) A := by
  induction os generalizing p with
  | nil => exact ⟨ho, trivial⟩
  | cons a os ih => exact ⟨h.1, ih _ h.2 ho⟩

variable {A : List ℝ → Prop}

/-- One more allowed call leads from a reachable problem to a reachable problem. -/
theorem Reachable.step {n : Nat} {p : Prob} (hp : Reachable n p A) (o : Op) (ho : GoodStep p o A) :
    Reachable n (p.step o).1 A := by
  obtain ⟨os, h1, h2⟩ := hp
  refine ⟨os ++ [o], goodHistory_append _ os o h1 (h2 ▸ ho), ?_⟩
  rw [h2]
  simp [Prob.runAll, List.foldl_append]

/-- What a component keeps when it is rescaled. -/
def Same (a b : String × Cons) : Prop :=
  a.1 = b.1 ∧ a.2.numIn = b.2.numIn ∧ a.2.numCon = b.2.numCon ∧ a.2.con = b.2.con ∧ a.2.jac = b.2.jac
    ∧ a.2.hess = b.2.hess ∧ a.2.jacStruct = b.2.jacStruct ∧ a.2.hessStruct = b.2.hessStruct

theorem same_setInput {n : Nat} {s : List ℝ} (k : String) {c : Cons} (h : GoodCons n s c A) {s' : List ℝ}
    (hs' : s'.length = n ∧ ∀ a ∈ s', a ≠ 0) :
    Same (k, c) (k, (c.setInputScales s').1) ∧ (c.setInputScales s').1.conScales = c.conScales := by
  obtain ⟨con, jac, hess, js, hs, k, he, hj, hh, g1, g2⟩ := h
  have := run_eq (con := con) (jac := jac) (hess := hess) hj.1 hh.1 g1.1 g2.1 (.setInput s') hs'
  simp only [Cons.run, lastInput, lastCon, List.foldl_cons, List.foldl_nil] at this
  rw [← he] at this
  rw [this]
  generalize hm : c.numCon = m at *
  subst he
  exact ⟨⟨rfl, rfl, rfl, rfl, rfl, rfl, rfl, rfl⟩, rfl⟩

theorem same_setCon {n : Nat} {s : List ℝ} (nm : String) {c : Cons} (h : GoodCons n s c A) {k' : List ℝ}
    (hk' : k'.length = c.numCon ∧ ∀ a ∈ k', a ≠ 0) :
    Same (nm, c) (nm, (c.setConScales k').1) ∧ (c.setConScales k').1.conScales = k' := by
  obtain ⟨con, jac, hess, js, hs, k, he, hj, hh, g1, g2⟩ := h
  have := run_eq (con := con) (jac := jac) (hess := hess) hj.1 hh.1 g1.1 g2.1 (.setCon k') hk'
  simp only [Cons.run, lastInput, lastCon, List.foldl_cons, List.foldl_nil] at this
  rw [← he] at this
  rw [this]
  generalize hm : c.numCon = m at *
  subst he
  exact ⟨⟨rfl, rfl, rfl, rfl, rfl, rfl, rfl, rfl⟩, rfl⟩

theorem applyAll_forall₂ {α : Type} (f : α → α × Option PyErr) (d : List (String × α))
    (h : ∀ c ∈ d, (f c.2).2 = none) :
    (applyAll f d).2 = none ∧ (applyAll f d).1 = d.map fun c => (c.1, (f c.2).1) := by
  induction d with
  | nil => exact ⟨rfl, rfl⟩
  | cons c d ih =>
    obtain ⟨k, a⟩ := c
    have h1 := h (k, a) (by simp)
    obtain ⟨i1, i2⟩ := ih (fun c hc => h c (by simp [hc]))
    have e : f a = ((f a).1, none) := by rw [← h1]
    simp only [applyAll]
    rw [e]
    exact ⟨i1, by simp [i2]⟩

/-- `Prob.setScales` with usable scales: every component gets them, nothing else changes. -/
theorem prob_setScales_spec {n : Nat} {p : Prob} (hp : Reachable n p A) {s : List ℝ}
    (hs : s.length = n ∧ ∀ a ∈ s, a ≠ 0) :
    (p.setScales s).2 = none ∧ Reachable n (p.setScales s).1 A ∧ (p.setScales s).1.scales = s
      ∧ (p.setScales s).1.cons = p.cons.map fun c => (c.1, (c.2.setInputScales s).1) := by
  have hI := hp.inv
  have ho := applyAll_forall₂ (fun o : Obj => o.setInputScales s) p.objs
    (fun o ho => ((hI.objs o ho).setInput hs).1)
  have hc := applyAll_forall₂ (fun c : Cons => c.setInputScales s) p.cons
    (fun c hc => ((hI.cons c hc).setInput hs).1)
  have hr : Reachable n (p.setScales s).1 A :=
    Reachable.step hp (.setScales s) ⟨by rw [hI.dec]; exact hs.1, hs.2⟩
  refine ⟨?_, hr, ?_, ?_⟩ <;> simp only [Prob.setScales, ho.1, hc.1, hc.2]

/-- `Prob.setConScales` on an existing component with usable scales. -/
theorem prob_setConScales_spec {n : Nat} {p : Prob} (hp : Reachable n p A) {name : String} {c : Cons}
    (hc : (name, c) ∈ p.cons) {k : List ℝ} (hk : k.length = c.numCon ∧ ∀ a ∈ k, a ≠ 0) :
    (p.setConScales name k).2 = none ∧ Reachable n (p.setConScales name k).1 A
      ∧ (p.setConScales name k).1.scales = p.scales
      ∧ (p.setConScales name k).1.cons
        = p.cons.map fun d => if d.1 = name then (d.1, (d.2.setConScales k).1) else d := by
  have hI := hp.inv
  have huniq : ∀ d ∈ p.cons, d.1 = name → d = (name, c) := by
    intro d hd hn
    have := List.inj_on_of_nodup_map hI.consNodup hd hc (by simpa using hn)
    exact this
  have hf : p.cons.find? (fun c => c.1 == name) = some (name, c) := by
    cases hf : p.cons.find? (fun c => c.1 == name) with
    | none =>
      have := List.find?_eq_none.mp hf (name, c) hc
      simp at this
    | some d =>
      have h1 := List.mem_of_find?_eq_some hf
      have h2 := List.find?_some hf
      rw [huniq d h1 (by simpa using h2)]
  have hr : Reachable n (p.setConScales name k).1 A := by
    refine Reachable.step hp (.setConScales name k) ?_
    intro c' hc'
    have := huniq _ hc' rfl
    cases this
    exact hk
  refine ⟨?_, hr, ?_, ?_⟩
  · simp only [Prob.setConScales, hf]
    exact ((hI.cons _ hc).setCon hk).1
  · simp only [Prob.setConScales, hf]
  · simp only [Prob.setConScales, hf]
    refine List.map_congr_left fun d hd => ?_
    by_cases e : d.1 = name
    · have := huniq d hd e
      subst this
      simp
    · simp [e]

theorem replicate_mul_flatten (N M : Nat) (x : List ℝ) :
    (List.range N).flatMap (fun _ => (List.range M).flatMap fun _ => x) = (List.replicate (N * M) x).flatten := by
  have h1 : ∀ (K : Nat) (y : List ℝ), (List.range K).flatMap (fun _ => y) = (List.replicate K y).flatten := by
    intro K y
    rw [List.flatMap_def]
    congr 1
    simp [List.map_const']
  rw [h1 M x, h1 N]
  induction N with
  | zero => simp
  | succ N ih => rw [List.replicate_succ, List.flatten_cons, ih, Nat.succ_mul, Nat.add_comm, List.replicate_add,
      List.flatten_append]

theorem getElem?_replicate_flatten (q : Nat) (x : List ℝ) (a k : Nat) (ha : a < q) (hk : k < x.length) :
    (List.replicate q x).flatten[a * x.length + k]? = x[k]? := by
  have hr : Np.Rect q x.length (List.replicate q x) := ⟨by simp, fun r hr => by rw [List.eq_of_mem_replicate hr]⟩
  rw [Np.getElem?_flatten_rect hr a k hk]
  simp [ha]

theorem Describes.get {L : Layout} {s : ScaleSt} {f : String → String → ℝ} (hd : Describes L s f) {g : String}
    (hg : g ∈ L.groups) : s.get g = (L.namesOf g).map (f g) := by
  obtain ⟨vs, hvs⟩ := (lookup_isSome_iff s.var g).mpr (by rw [hd.keys]; simp [hg])
  have hm : (g, vs) ∈ s.var := by
    obtain ⟨l1, l2, h2, _⟩ := List.lookup_eq_some_iff.mp hvs
    rw [h2]; simp
  unfold ScaleSt.get
  rw [hvs]
  exact hd.stage g hg vs hm

theorem askedFrom_one (cfgs : List ScaleConfig) : askedFrom (fun _ _ => 1) cfgs = askedScale cfgs := rfl

theorem askedScale_ne {cfgs : List ScaleConfig} (h : ∀ c ∈ cfgs, c.value ≠ 0) (g n : String) :
    askedScale cfgs g n ≠ 0 := by
  unfold askedScale
  split
  · rename_i c hc
    exact h c (by have := List.mem_of_find?_eq_some hc; simpa using this)
  · exact one_ne_zero

/-- The scales of the dynamics rows of one stage, of the constraint outputs and of the residuals. -/
noncomputable def stageRowScales (L : Layout) (nr : Nat) (cfgs : List ScaleConfig) : List ℝ :=
  (L.namesOf "states").map (askedScale cfgs "states")
    ++ ((L.namesOf "con_outputs").map (askedScale cfgs "con_outputs") ++ List.replicate nr 1)

/-- The number of rows of `continuity`, of `model_algebra`, and of the condensed `model_algebra`
(scaled_mesh_ocp.py:591-597, 1251-1279). -/
def contRows (L : Layout) : Nat := L.numIntervals * (L.nspi - 1) * L.size "states"
def algRows (L : Layout) (nr : Nat) : Nat := L.numStages * (L.size "states" + (L.size "con_outputs" + nr))
def condRows (L : Layout) (nr : Nat) : Nat := contRows L + L.numStages * (L.size "con_outputs" + nr)

/-- The components an OCP has when `set_scales` is called. -/
def HasComponents (L : Layout) (nr : Nat) (condensed : Bool) (p : Prob) : Prop :=
  if condensed then ∃ c, ("model_algebra", c) ∈ p.cons ∧ c.numCon = condRows L nr
  else (∃ c, ("model_algebra", c) ∈ p.cons ∧ c.numCon = algRows L nr)
    ∧ ∃ c, ("continuity", c) ∈ p.cons ∧ c.numCon = contRows L

theorem ne_of_mem_flatten_replicate {q : Nat} {x : List ℝ} (h : ∀ a ∈ x, a ≠ 0) :
    ∀ a ∈ (List.replicate q x).flatten, a ≠ 0 := by
  intro a ha
  obtain ⟨y, hy, hay⟩ := List.mem_flatten.mp ha
  rw [List.eq_of_mem_replicate hy] at hay
  exact h a hay

/-- **C32.** A call of `set_scales` whose configs all name known variables and are non-zero succeeds; the problem
stays a reachable one (so C09–C17 apply to it); every decision variable has the scale asked for by the last matching
config, at every stage, and 1 if there is none; and every row of every constraint has the documented scale: continuity
rows and dynamics rows that of their state, constraint-output rows that of their output, residual rows 1, rows of
any other constraint the scale they had. The raw callables are untouched. -/
theorem C32_set_scales {L : Layout} (h : L.Made) (hst : "states" ∈ L.groups) (hco : "con_outputs" ∈ L.groups)
    (nr : Nat) (condensed : Bool) {p : Prob} (hp : Reachable L.numDec p A) (hcomp : HasComponents L nr condensed p)
    (cfgs : List ScaleConfig) (hk : ∀ c ∈ cfgs, c.Known L) (hv : ∀ c ∈ cfgs, c.value ≠ 0) :
    ∃ q, setScales L nr condensed p cfgs = (q, none) ∧ Reachable L.numDec q A
      ∧ (∀ v i, L.IsVar v → L.query v = .ok (.scalar i) →
          q.scales[i]? = some (askedScale cfgs (Var.group v) (Var.name v)))
      ∧ List.Forall₂ Same p.cons q.cons
      ∧ (∀ c, ("continuity", c) ∈ q.cons → condensed = false →
          ∀ i l k, i < L.numIntervals → l < L.nspi - 1 → k < L.size "states" →
            c.conScales[(i * (L.nspi - 1) + l) * L.size "states" + k]?
              = ((L.namesOf "states").map (askedScale cfgs "states"))[k]?)
      ∧ (∀ c, ("model_algebra", c) ∈ q.cons → condensed = false →
          ∀ s r, s < L.numStages → r < (stageRowScales L nr cfgs).length →
            c.conScales[s * (stageRowScales L nr cfgs).length + r]? = (stageRowScales L nr cfgs)[r]?)
      ∧ (∀ c, ("model_algebra", c) ∈ q.cons → condensed = true →
          (∀ i l k, i < L.numIntervals → l < L.nspi - 1 → k < L.size "states" →
            c.conScales[(i * (L.nspi - 1) + l) * L.size "states" + k]?
              = ((L.namesOf "states").map (askedScale cfgs "states"))[k]?)
          ∧ ∀ s r, s < L.numStages → r < L.size "con_outputs" + nr →
            c.conScales[contRows L + s * (L.size "con_outputs" + nr) + r]?
              = (stageRowScales L nr cfgs)[L.size "states" + r]?)
      ∧ (∀ name c d, name ≠ "model_algebra" → (condensed = true ∨ name ≠ "continuity") →
          (name, c) ∈ p.cons → (name, d) ∈ q.cons → d.conScales = c.conScales) := by
  obtain ⟨l1, hd⟩ := scaleLoop_ok h cfgs (describes_init h) hk
  rw [askedFrom_one] at hd
  generalize hsd : scaleLoop L (initScales L) cfgs = r at l1 hd
  obtain ⟨s, e⟩ := r
  dsimp only at l1 hd
  subst l1
  -- the new scales are usable
  have hdec : s.dec.length = L.numDec ∧ ∀ a ∈ s.dec, a ≠ 0 := by
    refine ⟨hd.len, fun a ha => ?_⟩
    obtain ⟨i, hi⟩ := List.mem_iff_getElem?.mp ha
    have hlt : i < L.numDec := by rw [← hd.len]; exact (List.getElem?_eq_some_iff.mp hi).1
    obtain ⟨v, hv', hq⟩ := C01_index_surjective h i hlt
    have := hd.dec v i hv' hq
    rw [hi] at this
    cases this
    exact askedScale_ne hv _ _
  have hsS := hd.get hst
  have hsC := hd.get hco
  have hcont : continuityScales L s = (List.replicate (L.numIntervals * (L.nspi - 1))
      ((L.namesOf "states").map (askedScale cfgs "states"))).flatten := by
    rw [continuityScales, replicate_mul_flatten, hsS]
  have hrest : s.get "con_outputs" ++ List.replicate nr 1
      = (L.namesOf "con_outputs").map (askedScale cfgs "con_outputs") ++ List.replicate nr (1 : ℝ) := by rw [hsC]
  have hstates_len : ((L.namesOf "states").map (askedScale cfgs "states")).length = L.size "states" := by simp [size]
  have hrest_len : ((L.namesOf "con_outputs").map (askedScale cfgs "con_outputs")
      ++ List.replicate nr (1 : ℝ)).length = L.size "con_outputs" + nr := by simp [size]
  have hrow_len : (stageRowScales L nr cfgs).length = L.size "states" + (L.size "con_outputs" + nr) := by
    rw [stageRowScales, List.length_append, hstates_len, hrest_len]
  have hne1 : ∀ a ∈ (L.namesOf "states").map (askedScale cfgs "states"), a ≠ 0 := by
    intro a ha
    obtain ⟨n, _, rfl⟩ := List.mem_map.mp ha
    exact askedScale_ne hv _ _
  have hne2 : ∀ a ∈ (L.namesOf "con_outputs").map (askedScale cfgs "con_outputs") ++ List.replicate nr (1 : ℝ),
      a ≠ 0 := by
    intro a ha
    rcases List.mem_append.mp ha with ha | ha
    · obtain ⟨n, _, rfl⟩ := List.mem_map.mp ha
      exact askedScale_ne hv _ _
    · rw [List.eq_of_mem_replicate ha]; exact one_ne_zero
  have hne3 : ∀ a ∈ stageRowScales L nr cfgs, a ≠ 0 := by
    intro a ha
    rcases List.mem_append.mp ha with ha | ha
    · exact hne1 a ha
    · exact hne2 a ha
  have hflat : ∀ (q : Nat) (x : List ℝ), (List.replicate q x).flatten.length = q * x.length := by
    intro q x; simp
  obtain ⟨p1, p2, p3, p4⟩ := prob_setScales_spec hp hdec
  generalize hP : p.setScales s.dec = P at p1 p2 p3 p4
  obtain ⟨P1, e1⟩ := P
  dsimp only at p1 p2 p3 p4
  subst p1
  have hI := hp.inv
  -- entry of the continuity scales
  have entryCont : ∀ i l k, i < L.numIntervals → l < L.nspi - 1 → k < L.size "states" →
      (continuityScales L s)[(i * (L.nspi - 1) + l) * L.size "states" + k]?
        = ((L.namesOf "states").map (askedScale cfgs "states"))[k]? := by
    intro i l k hi hl hk
    rw [hcont]
    have := getElem?_replicate_flatten (L.numIntervals * (L.nspi - 1))
      ((L.namesOf "states").map (askedScale cfgs "states")) (i * (L.nspi - 1) + l) k ?_ (by rw [hstates_len]; exact hk)
    · rw [hstates_len] at this; exact this
    · have : (i + 1) * (L.nspi - 1) ≤ L.numIntervals * (L.nspi - 1) := Nat.mul_le_mul_right _ hi
      rw [Nat.add_mul, Nat.one_mul] at this
      omega
  have hcontlen : (continuityScales L s).length = contRows L := by rw [hcont, hflat, hstates_len, contRows]
  have sameTrans : ∀ a b c, Same a b → Same b c → Same a c := by
    rintro a b c ⟨h1, h2, h3, h4, h5, h6, h7, h8⟩ ⟨k1, k2, k3, k4, k5, k6, k7, k8⟩
    exact ⟨h1.trans k1, h2.trans k2, h3.trans k3, h4.trans k4, h5.trans k5, h6.trans k6, h7.trans k7, h8.trans k8⟩
  have forallMap : ∀ (d : List (String × Cons)) (F : String × Cons → String × Cons), (∀ c ∈ d, Same c (F c)) →
      List.Forall₂ Same d (d.map F) := by
    intro d F hF
    induction d with
    | nil => exact List.Forall₂.nil
    | cons c d ih => exact List.Forall₂.cons (hF c (by simp)) (ih fun c' hc' => hF c' (by simp [hc']))
  -- the named component after the first phase
  have inP1 : ∀ {name : String} {c : Cons}, (name, c) ∈ p.cons →
      (name, (c.setInputScales s.dec).1) ∈ P1.cons ∧ (c.setInputScales s.dec).1.numCon = c.numCon := by
    intro name c hc
    rw [p4]
    exact ⟨List.mem_map.mpr ⟨(name, c), hc, rfl⟩, ((hI.cons _ hc).setInput hdec).2.2⟩
  have uniq : ∀ {q : Prob}, Reachable L.numDec q A → ∀ {name : String} {c d : Cons}, (name, c) ∈ q.cons →
      (name, d) ∈ q.cons → c = d := by
    intro q hq name c d hc hd
    have := List.inj_on_of_nodup_map hq.inv.consNodup hc hd rfl
    simpa using this
  have hIP := p2.inv
  cases condensed with
  | true =>
    obtain ⟨c, hc, hcn⟩ := hcomp
    obtain ⟨i1, i2⟩ := inP1 hc
    have hk' : (continuityScales L s ++ (List.replicate L.numStages
        ((L.namesOf "con_outputs").map (askedScale cfgs "con_outputs") ++ List.replicate nr (1 : ℝ))).flatten).length
        = (c.setInputScales s.dec).1.numCon
        ∧ ∀ a ∈ continuityScales L s ++ (List.replicate L.numStages
          ((L.namesOf "con_outputs").map (askedScale cfgs "con_outputs") ++ List.replicate nr (1 : ℝ))).flatten,
          a ≠ 0 := by
      refine ⟨?_, fun a ha => ?_⟩
      · rw [List.length_append, hcontlen, hflat, hrest_len, i2, hcn, condRows]
      · rcases List.mem_append.mp ha with ha | ha
        · rw [hcont] at ha; exact ne_of_mem_flatten_replicate hne1 a ha
        · exact ne_of_mem_flatten_replicate hne2 a ha
    obtain ⟨q1, q2, q3, q4⟩ := prob_setConScales_spec p2 i1 hk'
    generalize hQ : P1.setConScales "model_algebra" _ = Q at q1 q2 q3 q4
    obtain ⟨Q1, e2⟩ := Q
    dsimp only at q1 q2 q3 q4
    subst q1
    refine ⟨Q1, ?_, q2, ?_, ?_, ?_, ?_, ?_, ?_⟩
    · unfold setScales
      rw [hsd]
      dsimp only
      rw [hP]
      dsimp only
      rw [if_pos rfl, hrest, hQ]
    · intro v i hv' hq
      rw [q3, p3]
      exact hd.dec v i hv' hq
    · rw [q4, p4, List.map_map]
      refine forallMap _ _ fun c' hc' => ?_
      have hs1 := (same_setInput c'.1 (hI.cons c' hc') hdec).1
      simp only [Function.comp]
      split
      · rename_i hn
        refine sameTrans _ _ _ hs1 ?_
        have hm : (c'.1, (c'.2.setInputScales s.dec).1) ∈ P1.cons := by
          rw [p4]; exact List.mem_map.mpr ⟨c', hc', rfl⟩
        have e : (c'.2.setInputScales s.dec).1 = (c.setInputScales s.dec).1 := by
          rw [hn] at hm; exact uniq p2 hm i1
        refine (same_setCon _ (hIP.cons _ hm) ?_).1
        rw [e]; exact hk'
      · exact hs1
    · intro _ _ hf; cases hf
    · intro _ _ hf; cases hf
    · intro d hd' _
      rw [q4] at hd'
      obtain ⟨d0, hd0, he⟩ := List.mem_map.mp hd'
      by_cases hn : d0.1 = "model_algebra"
      · rw [if_pos hn] at he
        have hd00 : ("model_algebra", d0.2) ∈ P1.cons := by rw [← hn]; exact hd0
        have e3 := uniq p2 hd00 i1
        have : d = ((c.setInputScales s.dec).1.setConScales (continuityScales L s ++ (List.replicate L.numStages
            ((L.namesOf "con_outputs").map (askedScale cfgs "con_outputs") ++ List.replicate nr (1 : ℝ))).flatten)).1 := by
          rw [← e3]; exact (Prod.mk.inj he).2.symm
        rw [this, (same_setCon "model_algebra" (hIP.cons _ i1) hk').2]
        constructor
        · intro i l k hi hl hk2
          rw [List.getElem?_append_left]
          · exact entryCont i l k hi hl hk2
          · rw [hcontlen, contRows]
            have h1 : (i + 1) * (L.nspi - 1) ≤ L.numIntervals * (L.nspi - 1) := Nat.mul_le_mul_right _ hi
            rw [Nat.add_mul, Nat.one_mul] at h1
            have h2 : (i * (L.nspi - 1) + l + 1) * L.size "states" ≤ L.numIntervals * (L.nspi - 1) * L.size "states" :=
              Nat.mul_le_mul_right _ (by omega)
            rw [Nat.add_mul, Nat.one_mul] at h2
            omega
        · intro t r ht hr
          rw [List.getElem?_append_right (by rw [hcontlen]; omega), hcontlen]
          have : contRows L + t * (L.size "con_outputs" + nr) + r - contRows L
              = t * (L.size "con_outputs" + nr) + r := by omega
          rw [this]
          have := getElem?_replicate_flatten L.numStages ((L.namesOf "con_outputs").map (askedScale cfgs "con_outputs")
            ++ List.replicate nr (1 : ℝ)) t r ht (by rw [hrest_len]; exact hr)
          rw [hrest_len] at this
          rw [this, stageRowScales]
          conv_rhs => rw [List.getElem?_append_right (by rw [hstates_len]; omega), hstates_len,
            Nat.add_sub_cancel_left]
      · rw [if_neg hn] at he
        exact absurd (by rw [he]) hn
    · intro name c' d hn _ hc' hd'
      rw [q4, p4, List.map_map] at hd'
      obtain ⟨d0, hd0, he⟩ := List.mem_map.mp hd'
      simp only [Function.comp] at he
      split at he
      · rename_i hn'
        have := (Prod.mk.inj he).1
        exact absurd (this ▸ hn') hn
      · obtain ⟨h1, h2⟩ := Prod.mk.inj he
        have : (name, d0.2) ∈ p.cons := by rw [← h1]; exact hd0
        rw [← h2, uniq hp this hc']
        exact (same_setInput name (hI.cons _ hc') hdec).2
  | false =>
    obtain ⟨⟨c, hc, hcn⟩, ⟨c2, hc2, hcn2⟩⟩ := hcomp
    obtain ⟨i1, i2⟩ := inP1 hc
    obtain ⟨j1, j2⟩ := inP1 hc2
    have hk' : (List.replicate L.numStages (stageRowScales L nr cfgs)).flatten.length
        = (c.setInputScales s.dec).1.numCon
        ∧ ∀ a ∈ (List.replicate L.numStages (stageRowScales L nr cfgs)).flatten, a ≠ 0 := by
      refine ⟨?_, ne_of_mem_flatten_replicate hne3⟩
      rw [hflat, hrow_len, i2, hcn, algRows]
    obtain ⟨q1, q2, q3, q4⟩ := prob_setConScales_spec p2 i1 hk'
    generalize hQ : P1.setConScales "model_algebra" _ = Q at q1 q2 q3 q4
    obtain ⟨Q1, e2⟩ := Q
    dsimp only at q1 q2 q3 q4
    subst q1
    have j1' : ("continuity", (c2.setInputScales s.dec).1) ∈ Q1.cons := by
      rw [q4]
      refine List.mem_map.mpr ⟨_, j1, ?_⟩
      rw [if_neg (fun (e : "continuity" = "model_algebra") => absurd e (by decide))]
    have hk2 : (continuityScales L s).length = (c2.setInputScales s.dec).1.numCon
        ∧ ∀ a ∈ continuityScales L s, a ≠ 0 := by
      refine ⟨by rw [hcontlen, j2, hcn2], fun a ha => ?_⟩
      rw [hcont] at ha; exact ne_of_mem_flatten_replicate hne1 a ha
    obtain ⟨r1, r2, r3, r4⟩ := prob_setConScales_spec q2 j1' hk2
    generalize hR : Q1.setConScales "continuity" _ = R at r1 r2 r3 r4
    obtain ⟨R1, e3⟩ := R
    dsimp only at r1 r2 r3 r4
    subst r1
    have hIQ := q2.inv
    -- the model algebra component after the second phase
    have i1' : ("model_algebra", ((c.setInputScales s.dec).1.setConScales
        (List.replicate L.numStages (stageRowScales L nr cfgs)).flatten).1) ∈ Q1.cons := by
      rw [q4]
      exact List.mem_map.mpr ⟨_, i1, by rw [if_pos rfl]⟩
    have sameQ : List.Forall₂ Same p.cons Q1.cons := by
      rw [q4, p4, List.map_map]
      refine forallMap _ _ fun c' hc' => ?_
      have hs1 := (same_setInput c'.1 (hI.cons c' hc') hdec).1
      simp only [Function.comp]
      split
      · rename_i hn
        refine sameTrans _ _ _ hs1 ?_
        have hm : (c'.1, (c'.2.setInputScales s.dec).1) ∈ P1.cons := by
          rw [p4]; exact List.mem_map.mpr ⟨c', hc', rfl⟩
        have e : (c'.2.setInputScales s.dec).1 = (c.setInputScales s.dec).1 := by
          rw [hn] at hm; exact uniq p2 hm i1
        refine (same_setCon _ (hIP.cons _ hm) ?_).1
        rw [e]; exact hk'
      · exact hs1
    have sameR : List.Forall₂ Same Q1.cons R1.cons := by
      rw [r4]
      refine forallMap _ _ fun c' hc' => ?_
      split
      · rename_i hn
        have hm : ("continuity", c'.2) ∈ Q1.cons := by rw [← hn]; exact hc'
        have e := uniq q2 hm j1'
        refine (same_setCon _ (hIQ.cons _ hc') ?_).1
        rw [e]; exact hk2
      · exact ⟨rfl, rfl, rfl, rfl, rfl, rfl, rfl, rfl⟩
    refine ⟨R1, ?_, r2, ?_, ?_, ?_, ?_, ?_, ?_⟩
    · unfold setScales
      rw [hsd]
      dsimp only
      rw [hP]
      dsimp only
      rw [if_neg (by decide), hrest, hsS]
      have : (L.namesOf "states").map (askedScale cfgs "states")
          ++ ((L.namesOf "con_outputs").map (askedScale cfgs "con_outputs") ++ List.replicate nr (1 : ℝ))
          = stageRowScales L nr cfgs := rfl
      rw [this, hQ]
      dsimp only
      rw [hR]
    · intro v i hv' hq
      rw [r3, q3, p3]
      exact hd.dec v i hv' hq
    · have : ∀ {a b c : List (String × Cons)}, List.Forall₂ Same a b → List.Forall₂ Same b c → List.Forall₂ Same a c := by
        intro a b c hab
        induction hab generalizing c with
        | nil => intro hbc; cases hbc; exact List.Forall₂.nil
        | cons h1 _ ih =>
          intro hbc
          cases hbc with
          | cons h2 h3 => exact List.Forall₂.cons (sameTrans _ _ _ h1 h2) (ih h3)
      exact this sameQ sameR
    · intro d hd' _ i l k hi hl hk3
      rw [r4] at hd'
      obtain ⟨d0, hd0, he⟩ := List.mem_map.mp hd'
      by_cases hn : d0.1 = "continuity"
      · rw [if_pos hn] at he
        have hd00 : ("continuity", d0.2) ∈ Q1.cons := by rw [← hn]; exact hd0
        have e4 := uniq q2 hd00 j1'
        have : d = ((c2.setInputScales s.dec).1.setConScales (continuityScales L s)).1 := by
          rw [← e4]; exact (Prod.mk.inj he).2.symm
        rw [this, (same_setCon "continuity" (hIQ.cons _ j1') hk2).2]
        exact entryCont i l k hi hl hk3
      · rw [if_neg hn] at he
        exact absurd (by rw [he]) hn
    · intro d hd' _ t r ht hr
      rw [r4] at hd'
      obtain ⟨d0, hd0, he⟩ := List.mem_map.mp hd'
      have hn : d0.1 ≠ "continuity" := by
        intro hn
        rw [if_pos hn] at he
        have := (Prod.mk.inj he).1
        rw [hn] at this
        exact absurd this (by decide)
      rw [if_neg hn] at he
      subst he
      have := uniq q2 hd0 i1'
      rw [this, (same_setCon "model_algebra" (hIP.cons _ i1) hk').2]
      exact getElem?_replicate_flatten _ _ t r ht hr
    · intro _ _ hf; cases hf
    · intro name c' d hn hn2 hc' hd'
      have hn2 : name ≠ "continuity" := by simpa using hn2
      rw [r4] at hd'
      obtain ⟨d0, hd0, he⟩ := List.mem_map.mp hd'
      have hn0 : d0.1 ≠ "continuity" := by
        intro hn'
        rw [if_pos hn'] at he
        have := (Prod.mk.inj he).1
        rw [hn'] at this
        exact hn2 this.symm
      rw [if_neg hn0] at he
      subst he
      rw [q4, p4, List.map_map] at hd0
      obtain ⟨d1, hd1, he⟩ := List.mem_map.mp hd0
      simp only [Function.comp] at he
      split at he
      · rename_i hn'
        have := (Prod.mk.inj he).1
        exact absurd (this ▸ hn') hn
      · obtain ⟨h1, h2⟩ := Prod.mk.inj he
        have : (name, d1.2) ∈ p.cons := by rw [← h1]; exact hd1
        rw [← h2, uniq hp this hc']
        exact (same_setInput name (hI.cons _ hc') hdec).2

/-- **C32 (feasibility).** In every reachable problem (in particular after `set_scales`) the scaled constraints vanish at
the scaled point iff all raw constraints vanish at the physical point. -/
theorem C32_feasible_set_unchanged {n : Nat} {p : Prob} (hp : Reachable n p A) (hne : p.cons ≠ []) (x : List ℝ)
    (hx : x.length = n) :
    ∃ g, p.constraints (vdiv x p.scales) = .ok g ∧ ((∀ v ∈ g, v = 0) ↔ ∀ c ∈ p.cons, ∀ v ∈ c.2.con x, v = 0) := by
  have hI := hp.inv
  refine ⟨(p.cons.map fun c => c.2.constraints (vdiv x p.scales)).flatten, ?_, ?_⟩
  · unfold Prob.constraints
    rw [if_neg (by simpa using hne)]
  · have key : ∀ c ∈ p.cons, (∀ v ∈ c.2.constraints (vdiv x p.scales), v = 0) ↔ ∀ v ∈ c.2.con x, v = 0 := by
      intro c hc
      obtain ⟨con, jac, hess, js, hs, k, he, hj, hh, g1, g2⟩ := hI.cons c hc
      have hcon : c.2.constraints (vdiv x p.scales) = vdiv (con x) k := by
        rw [he]
        show vdiv (con (vmul (vdiv x p.scales) p.scales)) k = _
        rw [vmul_vdiv_cancel (by rw [hx, g1.1]) g1.2]
      have hraw : c.2.con x = con x := by rw [he]; rfl
      have hlen : (con x).length = k.length := by rw [(hj.2 x hx).1, g2.1]
      rw [hcon, hraw]
      have : vmul (vdiv (con x) k) k = con x := vmul_vdiv_cancel hlen g2.2
      constructor
      · intro h0 v hv
        obtain ⟨i, hi⟩ := List.mem_iff_getElem?.mp hv
        have hi' := (List.getElem?_eq_some_iff.mp hi).1
        have h1 := getD_vdiv hlen i
        have h2 : (vdiv (con x) k).getD i 0 = 0 := by
          by_cases hl : i < (vdiv (con x) k).length
          · rw [List.getD_eq_getElem?_getD, List.getElem?_eq_getElem hl]
            exact h0 _ (List.getElem_mem hl)
          · simp at hl; omega
        have h3 : (con x).getD i 0 = v := by simp [List.getD_eq_getElem?_getD, hi]
        rw [h2, h3] at h1
        have hk0 := getD_mem_ne g2.2 (i := i) (by omega)
        rcases (div_eq_zero_iff.mp h1.symm) with h4 | h4
        · exact h4
        · exact absurd h4 hk0
      · intro h0 v hv
        obtain ⟨i, hi⟩ := List.mem_iff_getElem?.mp hv
        have hi' := (List.getElem?_eq_some_iff.mp hi).1
        have h1 := getD_vdiv hlen i
        have h3 : (vdiv (con x) k).getD i 0 = v := by simp [List.getD_eq_getElem?_getD, hi]
        have h2 : (con x).getD i 0 = 0 := by
          have hl : i < (con x).length := by simp at hi'; omega
          rw [List.getD_eq_getElem?_getD, List.getElem?_eq_getElem hl]
          exact h0 _ (List.getElem_mem hl)
        rw [h2, h3] at h1
        rw [h1]; simp
    constructor
    · intro h c hc
      exact (key c hc).mp fun v hv => h v (List.mem_flatten.mpr ⟨_, List.mem_map.mpr ⟨c, hc, rfl⟩, hv⟩)
    · intro h v hv
      obtain ⟨l, hl, hvl⟩ := List.mem_flatten.mp hv
      obtain ⟨c, hc, rfl⟩ := List.mem_map.mp hl
      exact (key c hc).mpr (h c hc) v hvl

/-- **C32 (rejection).** A config for an unknown name raises ValueError (KeyError if the group or the global is unknown);
the components keep their scales, but the problem's own scales have been overwritten with those of the configs before
the bad one. -/
theorem C32_unknown_variable {L : Layout} (h : L.Made) (nr : Nat) (condensed : Bool) (p : Prob)
    (pre post : List ScaleConfig) (c : ScaleConfig) (hk : ∀ d ∈ pre, d.Known L) (hc : ¬ c.Known L) :
    ∃ s : List ℝ, setScales L nr condensed p (pre ++ c :: post)
        = ({ p with scales := s }, some (if c.group ∈ L.groups then .valueError else .keyError))
      ∧ s.length = L.numDec
      ∧ ∀ v i, L.IsVar v → L.query v = .ok (.scalar i) →
          s[i]? = some (askedScale pre (Var.group v) (Var.name v)) := by
  obtain ⟨l1, hd⟩ := scaleLoop_error h pre c post (describes_init h) hk hc
  rw [askedFrom_one] at hd
  generalize hsd : scaleLoop L (initScales L) (pre ++ c :: post) = r at l1 hd
  obtain ⟨s, e⟩ := r
  dsimp only at l1 hd
  subst l1
  refine ⟨s.dec, ?_, hd.len, hd.dec⟩
  unfold setScales
  rw [hsd]

/-- **Finding (C32).** After a `set_scales` that raised, the problem's scales may differ from the scales its components
use: here a problem with one objective, one accepted and one unknown variable. A solve on this problem would scale the
bounds and unscale the solution with other factors than the ones the objective is evaluated with. -/
theorem C32_failed_call_leaves_mixed_scales :
    ∃ (L : Layout) (p : Prob) (cfgs : List ScaleConfig), L.Made ∧ Reachable L.numDec p ∧
      (setScales L 0 false p cfgs).2 = some .valueError ∧
      ∃ o ∈ (setScales L 0 false p cfgs).1.objs, o.2.inScales ≠ (setScales L 0 false p cfgs).1.scales := by
  let L : Layout := ⟨[("states", ["x"]), ("inputs", ["u"])], ["states", "inputs"], [], 0, 2⟩
  have hL : L.Made := ⟨by decide +kernel, by decide, by decide⟩
  have hn : L.numDec = 2 := by decide +kernel
  have hr0 : Reachable 2 (Prob.init 2) := ⟨[], trivial, rfl⟩
  have hr : Reachable 2 ((Prob.init 2).step (.addObj "f" exProd)).1 :=
    Reachable.step hr0 _ ⟨[1, 1], exProd_good⟩
  have e2 : exProd.setInputScales (Prob.init 2).scales = (exProd, none) := exProd_set
  have hobj : ((Prob.init 2).step (.addObj "f" exProd)).1.objs = [("f", exProd)] := by
    simp only [Prob.step, Prob.addObjective]
    rw [if_neg (by simp [hasKey, Prob.init]), e2]
    simp [Prob.init]
  obtain ⟨s, hs, hlen, hv⟩ := C32_unknown_variable hL 0 false ((Prob.init 2).step (.addObj "f" exProd)).1
    [⟨"states", "x", 2⟩] [] ⟨"states", "zz", 3⟩
    (by intro d hd; rw [List.mem_singleton] at hd; subst hd; left; decide +kernel)
    (by rintro (h | h)
        · exact absurd h (by decide +kernel)
        · exact absurd h.1 (by decide +kernel))
  refine ⟨L, ((Prob.init 2).step (.addObj "f" exProd)).1, [⟨"states", "x", 2⟩] ++ ⟨"states", "zz", 3⟩ :: [], hL, by rw [hn]; exact hr, ?_, ("f", exProd), ?_, ?_⟩
  · rw [hs]
    simp [L]
  · rw [hs]
    show _ ∈ ((Prob.init 2).step (.addObj "f" exProd)).1.objs
    rw [hobj]; simp
  · rw [hs]
    show exProd.inScales ≠ s
    intro he
    have := hv (.stage 0 "states" "x") 0 ⟨by decide +kernel, by decide +kernel, ["x"], by decide +kernel, by simp⟩
      (by decide +kernel)
    rw [← he] at this
    have h1 : askedScale [⟨"states", "x", 2⟩] (Var.group (.stage 0 "states" "x")) (Var.name (.stage 0 "states" "x")) = 2 := by
      simp [askedScale, Var.group, Var.name]
    rw [h1] at this
    simp [exProd, Obj.stateOf] at this

/-! ## The hypotheses can be met -/

/-- A constraint object with `m` rows that are always zero. -/
noncomputable def zeroCons (n m : Nat) : Cons :=
  Cons.stateOf n m (fun _ => List.replicate m 0) (fun _ => []) (fun _ _ => []) ([], []) ([], [])
    (List.replicate n 1) (List.replicate m 1)

theorem zeroCons_good (n m : Nat) : GoodCons n (List.replicate n 1) (zeroCons n m) := by
  refine ⟨_, _, _, _, _, _, rfl, ⟨by simp [StructIn], ?_⟩, ⟨by simp [StructIn], ?_⟩, ones_good n, ones_good m⟩
  · intro y _
    refine ⟨by simp [zeroCons, Cons.stateOf], rfl, ?_⟩
    intro _ r _ j _
    simpa [assemble] using hasDerivAt_const _ _
  · intro y lam _ _
    refine ⟨rfl, fun _ => IsHessianAt.of_global ‹_› ⟨fun _ _ => 0, ?_, ?_⟩⟩
    · intro z _ j _
      exact hasDerivAt_const _ _
    · intro i j _ _ _
      simpa [assemble] using hasDerivAt_const _ _

/-- Two intervals of three stages, two states, one output. -/
def exScaleLayout : Layout :=
  ⟨[("states", ["x", "v"]), ("inputs", ["u"]), ("states_dot", ["x", "v"]), ("con_outputs", ["y"])],
   ["states", "inputs", "states_dot", "con_outputs"], ["mesh_scale"], 2, 3⟩

example : ∃ p, Reachable exScaleLayout.numDec p ∧ HasComponents exScaleLayout 1 false p ∧ exScaleLayout.Made
    ∧ (ScaleConfig.mk "states" "v" 5).Known exScaleLayout ∧ (ScaleConfig.mk "global" "mesh_scale" 7).Known exScaleLayout := by
  have hn : exScaleLayout.numDec = 31 := by decide +kernel
  have h0 : Reachable 31 (Prob.init 31) := ⟨[], trivial, rfl⟩
  have g1 := zeroCons_good 31 (algRows exScaleLayout 1)
  have g2 := zeroCons_good 31 (contRows exScaleLayout)
  obtain ⟨c1, _, n1, e1⟩ := C16_accepted h0 "model_algebra" _ g1 (by simp [Prob.init])
  have h1 : Reachable 31 _ := Reachable.step h0 (.addCon "model_algebra" (zeroCons 31 (algRows exScaleLayout 1)))
    ⟨_, g1⟩
  simp only [Prob.step, e1] at h1
  obtain ⟨c2, _, n2, e2⟩ := C16_accepted h1 "continuity" _ g2 (by simp [Prob.init])
  have h2 : Reachable 31 _ := Reachable.step h1 (.addCon "continuity" (zeroCons 31 (contRows exScaleLayout))) ⟨_, g2⟩
  simp only [Prob.step, e2] at h2
  refine ⟨_, hn ▸ h2, ?_, ⟨by decide +kernel, by decide, by decide⟩, by left; decide +kernel, by right; decide +kernel⟩
  unfold HasComponents
  rw [if_neg (by decide)]
  exact ⟨⟨c1, by simp, n1⟩, ⟨c2, by simp, n2⟩⟩

end Lumos.Ocp
