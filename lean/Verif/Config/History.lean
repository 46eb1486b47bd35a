import Verif.Sym.Cond
import Verif.Ocp.BuildMore
import Verif.Ocp.BuildExample
/-!
# C109: several problems from the same configuration objects

Models what the construction of configurations (lumos/simulations/laptime_simulation.py:121-136) and of problems
(lumos/optimal_control/scaled_mesh_ocp.py:127-144, 724-729) does to the configuration and to the sequences the user passed. What a problem then is, is `Ocp.Setup.build`.
-/

namespace Lumos.Config.History

open Lumos DecVar DecVar.Layout Bounds Ocp NLP

/-! ## Model -/

/-- A Python sequence: a tuple, which never changes, or the list at an address. -/
inductive Seq (α : Type) where
  | tup (l : List α)
  | list (a : Nat)

/-- The fields of a configuration that are modified after they were given, or that must be tuples. -/
structure Cfg where
  bounds : Seq (BoundConfig EReal)
  /-- Whether the boundary conditions are in a list, and which they are. -/
  bcsInList : Bool
  bcs : List (BC EReal)
  nonCyclic : Seq String
  isCondensed : Bool

/-- The lists and the configurations. -/
structure World where
  boundLists : Nat → List (BoundConfig EReal)
  nameLists : Nat → List String
  /-- The address of the next new list of names. -/
  next : Nat
  cfgs : List Cfg

/-- The elements of a sequence. -/
def Seq.get {α : Type} (heap : Nat → List α) : Seq α → List α
  | .tup l => l
  | .list a => heap a

/-- `seq += tuple(l)`: a tuple is replaced by a longer one, a list is extended in place. -/
def Seq.extend {α : Type} (heap : Nat → List α) (l : List α) : Seq α → Seq α × (Nat → List α)
  | .tup k => (.tup (k ++ l), heap)
  | .list a => (.list a, fun b => if b = a then heap a ++ l else heap b)

/-- `BoundConfig("states_dot", n, (0, 0))` (scaled_mesh_ocp.py:136-139). -/
noncomputable def dot (n : String) : BoundConfig EReal := ⟨"states_dot", n, .scalar 0, .scalar 0⟩

/-- What a user does with configurations. -/
inductive Op where
  /-- A new `SimConfig` (or, `lap`, `LTCConfig` with a track); without `nonCyclic` it gets a new empty list (config.py:128). -/
  | new (lap : Bool) (bounds : Seq (BoundConfig EReal)) (bcsInList : Bool) (bcs : List (BC EReal)) (nonCyclic : Option (Seq String)) (isCondensed : Bool)
  /-- `config.is_condensed = value`. -/
  | setCondensed (i : Nat) (value : Bool)
  /-- Constructing a problem from configuration `i`; `S` is everything else that the problem is made from. -/
  | construct (i : Nat) (S : Setup)

/-- `if name not in self.non_cyclic_vars: self.non_cyclic_vars.append(name)` (laptime_simulation.py:131-136). -/
def appendNew (l : List String) (name : String) : List String := if name ∈ l then l else l ++ [name]

/-- The names that a lap time simulation never makes periodic (laptime_simulation.py:131). -/
def lapNames : List String := ["states.time", "inputs.track_heading"]

/-- `LTCConfig.__post_init__` (laptime_simulation.py:121-136) on the sequence of names: a tuple has no `append`. -/
def lapPost (w : World) : Seq String → Py World
  | .tup l => if ∀ n ∈ lapNames, n ∈ l then .ok w else .error .attributeError
  | .list a => .ok { w with nameLists := fun b => if b = a then lapNames.foldl appendNew (w.nameLists a) else w.nameLists b }

/-- The setup of the problem that is constructed from a configuration. -/
def setup (w : World) (c : Cfg) (S : Setup) : Setup :=
  { S with bounds := c.bounds.get w.boundLists, bcs := c.bcs, nonCyclic := c.nonCyclic.get w.nameLists, isCondensed := c.isCondensed }

/-- What constructing a problem does to the configuration (scaled_mesh_ocp.py:132-139): nothing if an exception is raised before, else, if the problem is
condensed, the bounds are extended. -/
noncomputable def after (w : World) (i : Nat) (c : Cfg) (S : Setup) : World :=
  match (setup w c S).assemble, S.c.o.L.getNames "states_dot" with
  | .ok _, .ok names =>
    if c.isCondensed then
      let r := c.bounds.extend w.boundLists (names.map dot)
      { w with boundLists := r.2, cfgs := w.cfgs.set i { c with bounds := r.1 } }
    else w
  | _, _ => w

/-- What constructing a problem returns: a list of boundary conditions cannot be added to the tuple of those that the problem has
(scaled_mesh_ocp.py:59, 728). -/
noncomputable def problem (w : World) (c : Cfg) (S : Setup) : Py Built := do
  if c.bcsInList then
    let _ ← (setup w c S).assemble
    let names ← S.c.o.L.getNames "states_dot"
    let _ ← orRaise (Bounds.updateBounds S.c.o.L (Bounds.fresh S.c.o.L) ((setup w c S).allBounds names))
    throw .typeError
  else (setup w c S).build

/-- The names of a new configuration: those given, or a new empty list (`field(default_factory=list)`, config.py:128). -/
def given (w : World) : Option (Seq String) → Seq String × World
  | some s => (s, w)
  | none => (.list w.next, { w with nameLists := fun b => if b = w.next then [] else w.nameLists b, next := w.next + 1 })

/-- One action; the problem or the exception, if any. -/
noncomputable def step (w : World) : Op → World × Py (Option Built)
  | .new lap bounds inList bcs names cond =>
    let r := given w names
    match if lap then lapPost r.2 r.1 else .ok r.2 with
    | .error e => (r.2, .error e)
    | .ok w' => ({ w' with cfgs := w'.cfgs ++ [⟨bounds, inList, bcs, r.1, cond⟩] }, .ok none)
  | .setCondensed i v =>
    match w.cfgs[i]? with
    | none => (w, .ok none)
    | some c => ({ w with cfgs := w.cfgs.set i { c with isCondensed := v } }, .ok none)
  | .construct i S =>
    match w.cfgs[i]? with
    | none => (w, .ok none)
    | some c => (after w i c S, (problem w c S).map some)

/-- A history: the world at its end. -/
noncomputable def run (w : World) : List Op → World
  | [] => w
  | op :: ops => run (step w op).1 ops

/-! ## What happens to a configuration -/

/-- What may become of a configuration whose bounds are a tuple, in a history. -/
structure Grown (i : Nat) (ops : List Op) (c c' : Cfg) (l added : List (BoundConfig EReal)) : Prop where
  bounds : c'.bounds = .tup (l ++ added)
  bcs : c'.bcs = c.bcs ∧ c'.bcsInList = c.bcsInList
  names : c'.nonCyclic = c.nonCyclic
  dots : ∀ b ∈ added, ∃ n S, Op.construct i S ∈ ops ∧ n ∈ S.c.o.L.namesOf "states_dot" ∧ b = dot n
  lifted : c.isCondensed = false → Op.setCondensed i true ∉ ops → added = [] ∧ c'.isCondensed = false

theorem step_set {w : World} {j : Nat} {v : Bool} {d : Cfg} (h : w.cfgs[j]? = some d) :
    step w (.setCondensed j v) = ({ w with cfgs := w.cfgs.set j { d with isCondensed := v } }, .ok none) := by
  simp only [step, h]

theorem step_set_none {w : World} {j : Nat} {v : Bool} (h : w.cfgs[j]? = none) : step w (.setCondensed j v) = (w, .ok none) := by
  simp only [step, h]

theorem step_construct {w : World} {j : Nat} {S : Setup} {d : Cfg} (h : w.cfgs[j]? = some d) :
    step w (.construct j S) = (after w j d S, (problem w d S).map some) := by
  simp only [step, h]

theorem step_construct_none {w : World} {j : Nat} {S : Setup} (h : w.cfgs[j]? = none) : step w (.construct j S) = (w, .ok none) := by
  simp only [step, h]

theorem given_cfgs (w : World) (names : Option (Seq String)) : (given w names).2.cfgs = w.cfgs ∧ (given w names).2.boundLists = w.boundLists := by
  cases names <;> exact ⟨rfl, rfl⟩

theorem lapPost_cfgs {w w' : World} {s : Seq String} (h : lapPost w s = .ok w') : w'.cfgs = w.cfgs ∧ w'.boundLists = w.boundLists := by
  cases s with
  | tup l =>
    unfold lapPost at h
    simp only at h
    split_ifs at h
    cases h
    exact ⟨rfl, rfl⟩
  | list a => cases h; exact ⟨rfl, rfl⟩

theorem step_new (w : World) (lap : Bool) (bounds : Seq (BoundConfig EReal)) (inList : Bool) (bcs : List (BC EReal)) (names : Option (Seq String))
    (cond : Bool) : ∃ tail, (step w (.new lap bounds inList bcs names cond)).1.cfgs = w.cfgs ++ tail
      ∧ (step w (.new lap bounds inList bcs names cond)).1.boundLists = w.boundLists ∧ ∀ c ∈ tail, c.bounds = bounds := by
  have e : step w (.new lap bounds inList bcs names cond) = match if lap then lapPost (given w names).2 (given w names).1 else .ok (given w names).2 with
      | .error e => ((given w names).2, .error e)
      | .ok w' => ({ w' with cfgs := w'.cfgs ++ [⟨bounds, inList, bcs, (given w names).1, cond⟩] }, .ok none) := rfl
  obtain ⟨g1, g2⟩ := given_cfgs w names
  rw [e]
  cases h : (if lap then lapPost (given w names).2 (given w names).1 else .ok (given w names).2 : Py World) with
  | error e => exact ⟨[], by simp [g1], g2, by simp⟩
  | ok w' =>
    have : w'.cfgs = w.cfgs ∧ w'.boundLists = w.boundLists := by
      cases lap with
      | false => cases h; exact ⟨g1, g2⟩
      | true => obtain ⟨a, b⟩ := lapPost_cfgs h; exact ⟨a.trans g1, b.trans g2⟩
    exact ⟨[⟨bounds, inList, bcs, (given w names).1, cond⟩], by simp only [this.1], this.2, by simp⟩

theorem names_mem {L : Layout} {names : List String} (h : L.getNames "states_dot" = .ok names) : L.namesOf "states_dot" = names := by
  unfold Layout.getNames at h
  unfold Layout.namesOf
  cases hx : L.names.lookup "states_dot" with
  | none => rw [hx] at h; cases h
  | some ns => rw [hx] at h; cases h; rfl

theorem step_cfg (w : World) (op : Op) {i : Nat} {c : Cfg} {l : List (BoundConfig EReal)} (hc : w.cfgs[i]? = some c) (hb : c.bounds = .tup l) :
    ∃ c' added, (step w op).1.cfgs[i]? = some c' ∧ Grown i [op] c c' l added := by
  have same : Grown i [op] c c l [] := ⟨by rw [hb, List.append_nil], ⟨rfl, rfl⟩, rfl, by simp, fun h _ => ⟨rfl, h⟩⟩
  have hi : i < w.cfgs.length := (List.getElem?_eq_some_iff.mp hc).1
  cases op with
  | new lap bounds inList bcs names cond =>
    obtain ⟨tail, h1, -⟩ := step_new w lap bounds inList bcs names cond
    exact ⟨c, [], by rw [h1, List.getElem?_append_left hi]; exact hc, same⟩
  | setCondensed j v =>
    cases hj : w.cfgs[j]? with
    | none => exact ⟨c, [], by rw [step_set_none hj]; exact hc, same⟩
    | some d =>
      rw [step_set hj]
      by_cases e : j = i
      · subst e
        rw [hc] at hj
        cases hj
        refine ⟨{ c with isCondensed := v }, [], List.getElem?_set_self hi, ⟨by rw [List.append_nil]; exact hb, ⟨rfl, rfl⟩, rfl, by simp, fun _ h2 => ⟨rfl, ?_⟩⟩⟩
        cases v with
        | false => rfl
        | true => simp at h2
      · exact ⟨c, [], (List.getElem?_set_ne e).trans hc, same⟩
  | construct j S =>
    cases hj : w.cfgs[j]? with
    | none => exact ⟨c, [], by rw [step_construct_none hj]; exact hc, same⟩
    | some d =>
      rw [step_construct hj]
      simp only
      unfold after
      split
      · rename_i p names hp hn
        split_ifs with hd
        · by_cases e : j = i
          · subst e
            rw [hc] at hj
            cases hj
            refine ⟨{ c with bounds := .tup (l ++ names.map dot) }, names.map dot, ?_, ⟨rfl, ⟨rfl, rfl⟩, rfl, ?_, ?_⟩⟩
            · rw [hb]
              exact List.getElem?_set_self hi
            · intro b hb'
              obtain ⟨n, hn', rfl⟩ := List.mem_map.mp hb'
              exact ⟨n, S, List.mem_singleton.mpr rfl, by rw [names_mem hn]; exact hn', rfl⟩
            · intro h _
              rw [h] at hd
              cases hd
          · exact ⟨c, [], (List.getElem?_set_ne e).trans hc, same⟩
        · exact ⟨c, [], hc, same⟩
      · exact ⟨c, [], hc, same⟩

/-- **C109** (a configuration with tuples). In every history of new configurations, switches of `is_condensed` and constructions of problems, finished or
not, a configuration whose bounds are a tuple keeps its boundary conditions, its names and its bounds, but for bounds on the derivatives of the states
(both zero) that constructions from this same configuration have added at the end; none are added if it is never switched to condensed. -/
theorem C109_tuple (ops : List Op) {w : World} {i : Nat} {c : Cfg} {l : List (BoundConfig EReal)} (hc : w.cfgs[i]? = some c) (hb : c.bounds = .tup l) :
    ∃ c' added, (run w ops).cfgs[i]? = some c' ∧ Grown i ops c c' l added := by
  induction ops generalizing w c l with
  | nil => exact ⟨c, [], hc, by rw [hb, List.append_nil], ⟨rfl, rfl⟩, rfl, by simp, fun h _ => ⟨rfl, h⟩⟩
  | cons op ops ih =>
    obtain ⟨c1, a1, h1, g1⟩ := step_cfg w op hc hb
    obtain ⟨c2, a2, h2, g2⟩ := ih h1 g1.bounds
    refine ⟨c2, a1 ++ a2, h2, by rw [g2.bounds, List.append_assoc], ⟨g2.bcs.1.trans g1.bcs.1, g2.bcs.2.trans g1.bcs.2⟩, g2.names.trans g1.names, ?_, ?_⟩
    · intro b hb'
      rcases List.mem_append.mp hb' with h | h
      · obtain ⟨n, S, k1, k2, k3⟩ := g1.dots b h
        exact ⟨n, S, List.mem_cons.mpr (.inl (List.mem_singleton.mp k1)), k2, k3⟩
      · obtain ⟨n, S, k1, k2, k3⟩ := g2.dots b h
        exact ⟨n, S, List.mem_cons_of_mem _ k1, k2, k3⟩
    · intro k1 k2
      obtain ⟨m1, m2⟩ := g1.lifted k1 (fun h => k2 (by rw [List.mem_singleton.mp h]; exact List.mem_cons_self ..))
      obtain ⟨m3, m4⟩ := g2.lifted m2 (fun h => k2 (List.mem_cons_of_mem _ h))
      exact ⟨by rw [m1, m3]; rfl, m4⟩

theorem after_names (w : World) (i : Nat) (c : Cfg) (S : Setup) : (after w i c S).nameLists = w.nameLists ∧ (after w i c S).next = w.next := by
  unfold after
  split
  · split_ifs <;> exact ⟨rfl, rfl⟩
  · exact ⟨rfl, rfl⟩

/-- The action makes a lap time configuration from the list of names at address `a`. -/
def Op.UsesNames (a : Nat) : Op → Prop
  | .new lap _ _ _ names _ => lap = true ∧ names = some (.list a)
  | _ => False

theorem step_names {w : World} {op : Op} {a : Nat} (ha : a < w.next) (h : ¬op.UsesNames a) :
    (step w op).1.nameLists a = w.nameLists a ∧ w.next ≤ (step w op).1.next := by
  cases op with
  | new lap bounds inList bcs names cond =>
    have g : (given w names).2.nameLists a = w.nameLists a ∧ w.next ≤ (given w names).2.next ∧
        (∀ b, (given w names).1 = .list b → lap = true → b ≠ a) := by
      cases names with
      | some s =>
        refine ⟨rfl, Nat.le_refl _, fun b hb hl e => h ⟨hl, ?_⟩⟩
        have hb : s = .list b := hb
        rw [hb, e]
      | none =>
        refine ⟨if_neg (by omega), Nat.le_succ _, fun b hb _ e => ?_⟩
        cases hb
        omega
    have key : ∀ w', (if lap then lapPost (given w names).2 (given w names).1 else .ok (given w names).2 : Py World) = .ok w' →
        w'.nameLists a = w.nameLists a ∧ w.next ≤ w'.next := by
      intro w' hw
      cases lap with
      | false => cases hw; exact ⟨g.1, g.2.1⟩
      | true =>
        rw [if_pos rfl] at hw
        cases hs : (given w names).1 with
        | tup l =>
          rw [hs] at hw
          unfold lapPost at hw
          simp only at hw
          split_ifs at hw
          cases hw
          exact ⟨g.1, g.2.1⟩
        | list b =>
          rw [hs] at hw
          cases hw
          exact ⟨(if_neg (Ne.symm (g.2.2 b hs rfl))).trans g.1, g.2.1⟩
    unfold step
    simp only
    cases hw : (if lap then lapPost (given w names).2 (given w names).1 else .ok (given w names).2 : Py World) with
    | error e => exact ⟨g.1, g.2.1⟩
    | ok w' => exact key w' hw
  | setCondensed j v =>
    cases hj : w.cfgs[j]? with
    | none => rw [step_set_none hj]; exact ⟨rfl, Nat.le_refl _⟩
    | some d => rw [step_set hj]; exact ⟨rfl, Nat.le_refl _⟩
  | construct j S =>
    cases hj : w.cfgs[j]? with
    | none => rw [step_construct_none hj]; exact ⟨rfl, Nat.le_refl _⟩
    | some d =>
      rw [step_construct hj]
      obtain ⟨e1, e2⟩ := after_names w j d S
      exact ⟨by rw [e1], by rw [e2]⟩

theorem run_names {a : Nat} (ops : List Op) {w : World} (ha : a < w.next) (h : ∀ op ∈ ops, ¬op.UsesNames a) : (run w ops).nameLists a = w.nameLists a := by
  induction ops generalizing w with
  | nil => rfl
  | cons op ops ih =>
    obtain ⟨e1, e2⟩ := step_names ha (h op (List.mem_cons_self ..))
    exact (ih (Nat.lt_of_lt_of_le ha e2) (fun o ho => h o (List.mem_cons_of_mem _ ho))).trans e1

/-- **C109** (problems do not leak). A problem constructed at the end of a history from a configuration with tuples that is never condensed is the problem
(or the exception) that would have been constructed at its beginning, whatever other configurations and problems were made in between; for a list of names
this needs that no lap time configuration was made from that list. -/
theorem C109_same (ops : List Op) {w : World} {i : Nat} {c : Cfg} {l : List (BoundConfig EReal)} (hc : w.cfgs[i]? = some c) (hb : c.bounds = .tup l)
    (hn : ∀ a, c.nonCyclic = .list a → a < w.next ∧ ∀ op ∈ ops, ¬op.UsesNames a) (hcd : c.isCondensed = false) (hs : Op.setCondensed i true ∉ ops)
    (S : Setup) : (step (run w ops) (.construct i S)).2 = (step w (.construct i S)).2 := by
  obtain ⟨c', added, h1, g⟩ := C109_tuple ops hc hb
  obtain ⟨rfl, hcd'⟩ := g.lifted hcd hs
  rw [step_construct h1, step_construct hc]
  have hset : setup (run w ops) c' S = setup w c S := by
    unfold setup
    rw [g.bounds, g.bcs.1, g.names, hcd, hcd', hb, List.append_nil]
    have : c.nonCyclic.get (run w ops).nameLists = c.nonCyclic.get w.nameLists := by
      cases hx : c.nonCyclic with
      | tup l => rfl
      | list a => exact run_names ops (hn a hx).1 (hn a hx).2
    rw [this]
    rfl
  simp only
  unfold problem
  rw [hset, g.bcs.2]

/-! ## Condensed problems from the same configuration -/

theorem find_reverse {α : Type} (p : α → Bool) (l added tail : List α) (h : ∀ b ∈ added, b ∈ tail) :
    (l ++ added ++ tail).reverse.find? p = (l ++ tail).reverse.find? p := by
  simp only [List.reverse_append, List.find?_append]
  cases ht : tail.reverse.find? p with
  | some x => rfl
  | none =>
    have : added.reverse.find? p = none := by
      rw [List.find?_eq_none] at ht ⊢
      exact fun b hb => ht b (List.mem_reverse.mpr (h b (List.mem_reverse.mp hb)))
    rw [this]
    rfl

theorem good_added {S : Setup} {D : List ℝ → ℝ → Prop} (h : S.Good D) (hc : S.isCondensed = true) {added : List (BoundConfig EReal)}
    (ha : ∀ b ∈ added, ∃ n ∈ S.c.o.L.namesOf "states_dot", b = dot n) : Setup.Good { S with bounds := S.bounds ++ added } D := by
  obtain ⟨h1, h2, h3, h4, h5, h6, h7, h8, h9, h10, h11, h12, h13, h14, h15⟩ := h
  refine ⟨h1, h2, h3, h4, h5, h6, h7, h8, h9, h10, h11, h12, h13, h14, ?_⟩
  obtain ⟨k1, k2⟩ := Sym.accepted.mp h15
  refine Sym.accepted.mpr ⟨fun c hc' => ?_, k2⟩
  unfold Setup.allBounds at k1 hc'
  simp only [hc, if_true] at k1 hc'
  rcases List.mem_append.mp hc' with hx | hx
  · rcases List.mem_append.mp hx with hx | hx
    · exact k1 c (List.mem_append_left _ hx)
    · obtain ⟨n, hn, rfl⟩ := ha c hx
      exact k1 _ (List.mem_append_right _ (List.mem_map.mpr ⟨n, hn, rfl⟩))
  · exact k1 c (List.mem_append_right _ hx)

/-- Bounds of the derivatives that are there already change nothing in a condensed problem. -/
theorem build_added {S : Setup} {D : List ℝ → ℝ → Prop} (h : S.Good D) (hc : S.isCondensed = true) {added : List (BoundConfig EReal)}
    (ha : ∀ b ∈ added, ∃ n ∈ S.c.o.L.namesOf "states_dot", b = dot n) :
    ∃ b b', S.build = .ok b ∧ Setup.build { S with bounds := S.bounds ++ added } = .ok b' ∧ b'.prob = b.prob ∧ b'.cl = b.cl ∧ b'.cu = b.cu
      ∧ ∀ v i, S.c.o.L.IsVar v → S.c.o.L.query v = .ok (.scalar i) → b'.bounds.lb[i]? = b.bounds.lb[i]? ∧ b'.bounds.ub[i]? = b.bounds.ub[i]? := by
  obtain ⟨b, _, _, e1, _, _, _, _, _, _, _, _, _, e2⟩ := build_ok h
  have h' := good_added h hc ha
  obtain ⟨b', _, _, f1, _, _, _, _, _, _, _, _, _, f2⟩ := build_ok h'
  refine ⟨b, b', e1, f1, ?_⟩
  have hm : ∀ v, lastMention S.c.o.L (b'.configBounds.map BoundConfig.req) v = lastMention S.c.o.L (b.configBounds.map BoundConfig.req) v := by
    intro v
    rw [e2, f2]
    unfold Setup.allBounds lastMention
    simp only [hc, if_true, List.map_append]
    exact find_reverse _ _ _ _ fun r hr => by
      obtain ⟨q, hq, rfl⟩ := List.mem_map.mp hr
      obtain ⟨n, hn, rfl⟩ := ha q hq
      exact List.mem_map.mpr ⟨_, List.mem_map.mpr ⟨n, hn, rfl⟩, rfl⟩
  have hparts : b'.prob = b.prob ∧ b'.cl = b.cl ∧ b'.cu = b.cu := by
    have ea : Setup.assemble { S with bounds := S.bounds ++ added } = S.assemble := rfl
    unfold Setup.build at e1 f1
    rw [ea] at f1
    cases hp : S.assemble with
    | error e => rw [hp] at e1; cases e1
    | ok p =>
      rw [hp] at e1 f1
      simp only [bind, Except.bind] at e1 f1
      cases hg : S.c.o.L.getNames "states_dot" with
      | error e => rw [hg] at e1; cases e1
      | ok names =>
        rw [hg] at e1 f1
        simp only at e1 f1
        split at e1
        · cases e1
        · split at e1
          · cases e1
          · split at f1
            · cases f1
            · split at f1
              · cases f1
              · cases hs : orRaise (Ocp.setScales S.c.o.L S.c.M.nr S.isCondensed p S.scales) with
                | error e => rw [hs] at e1; cases e1
                | ok q =>
                  rw [hs] at e1 f1
                  cases e1
                  cases f1
                  exact ⟨rfl, rfl, rfl⟩
  refine ⟨hparts.1, hparts.2.1, hparts.2.2, fun v i hv hq => ?_⟩
  obtain ⟨g1, g2, -⟩ := C48_bounds h e1 hv hq
  obtain ⟨k1, k2, -⟩ := C48_bounds h' f1 hv hq
  have hm := hm v
  simp only at k1 k2
  rw [hm] at k1 k2
  exact ⟨k1.trans g1.symm, k2.trans g2.symm⟩

theorem problem_tuple {w : World} {c : Cfg} (S : Setup) (h : c.bcsInList = false) : problem w c S = (setup w c S).build := by
  unfold problem
  rw [if_neg (by rw [h]; decide)]

theorem run_append (w : World) (a b : List Op) : run w (a ++ b) = run (run w a) b := by
  induction a generalizing w with
  | nil => rfl
  | cons o a ih => exact ih _

/-- **C109** (condensed problems). Constructing a condensed problem from a configuration with tuples, at the end of a history in which all problems made
from this configuration were for models with the same states, gives the problem that it would give at the beginning: the same components, and the same
bounds of every variable. -/
theorem C109_again (ops : List Op) {w : World} {i : Nat} {c : Cfg} {l : List (BoundConfig EReal)} (hc : w.cfgs[i]? = some c) (hb : c.bounds = .tup l)
    (hn : ∀ a, c.nonCyclic = .list a → a < w.next ∧ ∀ op ∈ ops, ¬op.UsesNames a) (ht : c.bcsInList = false) {S : Setup} {D : List ℝ → ℝ → Prop}
    (hS : (setup w { c with isCondensed := true } S).Good D)
    (hops : ∀ T, Op.construct i T ∈ ops → ∀ n ∈ T.c.o.L.namesOf "states_dot", n ∈ S.c.o.L.namesOf "states_dot") :
    ∃ b b', (step (run w [.setCondensed i true]) (.construct i S)).2 = .ok (some b)
      ∧ (step (run w (ops ++ [.setCondensed i true])) (.construct i S)).2 = .ok (some b')
      ∧ b'.prob = b.prob ∧ b'.cl = b.cl ∧ b'.cu = b.cu
      ∧ ∀ v k, S.c.o.L.IsVar v → S.c.o.L.query v = .ok (.scalar k) → b'.bounds.lb[k]? = b.bounds.lb[k]? ∧ b'.bounds.ub[k]? = b.bounds.ub[k]? := by
  obtain ⟨c', added, h1, g⟩ := C109_tuple ops hc hb
  have hi : i < w.cfgs.length := (List.getElem?_eq_some_iff.mp hc).1
  have hi' : i < (run w ops).cfgs.length := (List.getElem?_eq_some_iff.mp h1).1
  have hadd : ∀ b ∈ added, ∃ n ∈ S.c.o.L.namesOf "states_dot", b = dot n := by
    intro b hb'
    obtain ⟨n, T, k1, k2, k3⟩ := g.dots b hb'
    exact ⟨n, hops T k1 n k2, k3⟩
  obtain ⟨b, b', e1, e2, e3⟩ := build_added hS rfl hadd
  refine ⟨b, b', ?_, ?_, e3⟩
  · have : run w [.setCondensed i true] = { w with cfgs := w.cfgs.set i { c with isCondensed := true } } := by
      simp only [run, step_set hc]
    rw [this, step_construct (d := { c with isCondensed := true }) (List.getElem?_set_self hi)]
    have k := problem_tuple (w := { w with cfgs := w.cfgs.set i { c with isCondensed := true } }) (c := { c with isCondensed := true }) S ht
    exact (congrArg (Except.map some) (k.trans e1)).trans rfl
  · have : run w (ops ++ [.setCondensed i true]) = { run w ops with cfgs := (run w ops).cfgs.set i { c' with isCondensed := true } } := by
      rw [run_append]
      simp only [run, step_set h1]
    rw [this, step_construct (d := { c' with isCondensed := true }) (List.getElem?_set_self hi')]
    have hset : setup { run w ops with cfgs := (run w ops).cfgs.set i { c' with isCondensed := true } } { c' with isCondensed := true } S
        = { setup w { c with isCondensed := true } S with bounds := (setup w { c with isCondensed := true } S).bounds ++ added } := by
      unfold setup
      simp only [g.bounds, g.bcs.1, g.names, hb, Seq.get]
      cases hx : c.nonCyclic with
      | tup l => rfl
      | list a => simp only [run_names ops (hn a hx).1 (hn a hx).2]
    have k := problem_tuple (w := { run w ops with cfgs := (run w ops).cfgs.set i { c' with isCondensed := true } })
      (c := { c' with isCondensed := true }) S (g.bcs.2.trans ht)
    exact (congrArg (Except.map some) (k.trans ((congrArg Setup.build hset).trans e2))).trans rfl

/-! ## Findings -/

theorem orRaise_ok {α : Type} {r : α × Option PyErr} {x : α} (h : orRaise r = .ok x) : r = (x, none) := by
  obtain ⟨y, o⟩ := r
  cases o with
  | none => cases h; rfl
  | some e => cases h

/-- What a problem that could be constructed accepted. -/
theorem build_accepted {S : Setup} {b : Built} (h : S.build = .ok b) : ∃ names s t, S.c.o.L.getNames "states_dot" = .ok names
    ∧ Bounds.updateBounds S.c.o.L (Bounds.fresh S.c.o.L) (S.allBounds names) = (s, none) ∧ Bounds.updateBCs S.c.o.L s S.bcs = (t, none) := by
  unfold Setup.build at h
  simp only [bind, Except.bind] at h
  cases hp : S.assemble with
  | error e => rw [hp] at h; cases h
  | ok p =>
    rw [hp] at h
    cases hg : S.c.o.L.getNames "states_dot" with
    | error e => rw [hg] at h; cases h
    | ok names =>
      rw [hg] at h
      simp only at h
      split at h
      · cases h
      · rename_i s hs
        split at h
        · cases h
        · rename_i t ht
          exact ⟨names, s, t, rfl, orRaise_ok hs, orRaise_ok ht⟩

/-- What a condensed construction leaves in its configuration. -/
theorem after_condensed {w : World} {i : Nat} {c : Cfg} {T : Setup} {p : Prob} {names : List String} (hc : w.cfgs[i]? = some c)
    (hd : c.isCondensed = true) (hp : (setup w c T).assemble = .ok p) (hn : T.c.o.L.getNames "states_dot" = .ok names) :
    ∃ c', (after w i c T).cfgs[i]? = some c' ∧ c'.bounds.get (after w i c T).boundLists = c.bounds.get w.boundLists ++ names.map dot
      ∧ c'.isCondensed = true ∧ c'.bcs = c.bcs ∧ c'.bcsInList = c.bcsInList := by
  have hi : i < w.cfgs.length := (List.getElem?_eq_some_iff.mp hc).1
  unfold after
  rw [hp, hn]
  simp only [hd, if_true]
  refine ⟨_, List.getElem?_set_self hi, ?_, rfl, rfl, rfl⟩
  cases c.bounds with
  | tup l => rfl
  | list a => simp [Seq.extend, Seq.get]

/-- **C109** (finding: another model). After a condensed problem was constructed from a configuration, or its construction failed after the constraints were
made, no problem, condensed or not, can be constructed from the configuration for a model that lacks one of the states. -/
theorem C109_other_model {w : World} {i : Nat} {c : Cfg} {T : Setup} {p : Prob} {names : List String} (hc : w.cfgs[i]? = some c)
    (hd : c.isCondensed = true) (hp : (setup w c T).assemble = .ok p) (hn : T.c.o.L.getNames "states_dot" = .ok names) {n : String} (hm : n ∈ names)
    {S : Setup} (hS : ∀ k, S.c.o.L.indexInDec "states_dot" n none ≠ .ok k) (v : Bool) :
    ∃ e, (step (run w [.construct i T, .setCondensed i v]) (.construct i S)).2 = .error e := by
  obtain ⟨c', k1, k2, _, _, k5⟩ := after_condensed hc hd hp hn
  have hi : i < (after w i c T).cfgs.length := (List.getElem?_eq_some_iff.mp k1).1
  have hr : run w [.construct i T, .setCondensed i v] = { after w i c T with cfgs := (after w i c T).cfgs.set i { c' with isCondensed := v } } := by
    simp only [run, step_construct hc, step_set k1]
  rw [hr, step_construct (d := { c' with isCondensed := v }) (List.getElem?_set_self hi)]
  generalize hw : ({ after w i c T with cfgs := (after w i c T).cfgs.set i { c' with isCondensed := v } } : World) = w'
  have hb : dot n ∈ (setup w' { c' with isCondensed := v } S).bounds := by
    show dot n ∈ c'.bounds.get w'.boundLists
    rw [← hw]
    show dot n ∈ c'.bounds.get (after w i c T).boundLists
    rw [k2]
    exact List.mem_append_right _ (List.mem_map.mpr ⟨n, hm, rfl⟩)
  have hbad : (setVarBounds S.c.o.L (Bounds.fresh S.c.o.L) "states_dot" n none (.pair (.scalar (0 : EReal)) (.scalar 0))).2 ≠ none := by
    unfold setVarBounds
    cases hx : S.c.o.L.indexInDec "states_dot" n none with
    | ok k => exact absurd hx (hS k)
    | error e => simp
  have hno : ∀ names s, Bounds.updateBounds S.c.o.L (Bounds.fresh S.c.o.L) ((setup w' { c' with isCondensed := v } S).allBounds names) ≠ (s, none) := by
    intro names s h
    have := (Sym.accepted (bcs := [])).mp ⟨s, s, h, by
      have hs := LapSim.updateBounds_bcs S.c.o.L (Bounds.fresh S.c.o.L) ((setup w' { c' with isCondensed := v } S).allBounds names)
      rw [h] at hs
      have hs : s.bcs = [] := hs
      unfold Bounds.updateBCs applyBCs
      rw [hs]
      cases s
      cases hs
      rfl⟩
    exact hbad (this.1 (dot n) (List.mem_append_left _ hb))
  cases hx : problem w' { c' with isCondensed := v } S with
  | error e => exact ⟨e, rfl⟩
  | ok b =>
    exfalso
    unfold problem at hx
    split_ifs at hx with hl
    · simp only [bind, Except.bind] at hx
      split at hx
      · cases hx
      · split at hx
        · cases hx
        · split at hx <;> cases hx
    · obtain ⟨nm, s, t, _, a2, _⟩ := build_accepted hx
      exact hno nm s a2

/-- **C109** (finding: shared lists of bounds). When the bounds are in a list, a condensed construction extends the user's list, and with it the bounds of
every other configuration that was made from this list. -/
theorem C109_shared_list {w : World} {i j a : Nat} {c d : Cfg} {T : Setup} {p : Prob} {names : List String} (hc : w.cfgs[i]? = some c)
    (hj : w.cfgs[j]? = some d) (hij : i ≠ j) (hb : c.bounds = .list a) (hb' : d.bounds = .list a) (hd : c.isCondensed = true)
    (hp : (setup w c T).assemble = .ok p) (hn : T.c.o.L.getNames "states_dot" = .ok names) :
    (step w (.construct i T)).1.cfgs[j]? = some d
      ∧ d.bounds.get (step w (.construct i T)).1.boundLists = d.bounds.get w.boundLists ++ names.map dot := by
  rw [step_construct hc]
  unfold after
  rw [hp, hn]
  simp only [hd, if_true, hb, hb', Seq.extend, Seq.get]
  exact ⟨(List.getElem?_set_ne hij).trans hj, trivial⟩

/-- **C109** (finding: a list of boundary conditions). No problem can be constructed from a configuration whose boundary conditions are in a list, even an
empty one: where a tuple would have given a problem it is a TypeError, raised after a condensed construction has extended the bounds. -/
theorem C109_list_of_conditions {w : World} {i : Nat} {c : Cfg} {S : Setup} (hc : w.cfgs[i]? = some c) (hl : c.bcsInList = true) :
    (∀ b, (step w (.construct i S)).2 ≠ .ok b)
    ∧ ((∃ b, (setup w c S).build = .ok b) → (step w (.construct i S)).2 = .error .typeError)
    ∧ ∀ p names, c.isCondensed = true → (setup w c S).assemble = .ok p → S.c.o.L.getNames "states_dot" = .ok names →
        ∃ c', (step w (.construct i S)).1.cfgs[i]? = some c'
          ∧ c'.bounds.get (step w (.construct i S)).1.boundLists = c.bounds.get w.boundLists ++ names.map dot := by
  rw [step_construct hc]
  refine ⟨fun b h => ?_, fun ⟨b, h⟩ => ?_, fun p names hd hp hn => ?_⟩
  · simp only at h
    cases hx : problem w c S with
    | error e => rw [hx] at h; cases h
    | ok b =>
      unfold problem at hx
      rw [if_pos hl] at hx
      simp only [bind, Except.bind] at hx
      split at hx
      · cases hx
      · split at hx
        · cases hx
        · split at hx <;> cases hx
  · obtain ⟨names, s, t, a1, a2, -⟩ := build_accepted h
    have a1 : S.c.o.L.getNames "states_dot" = .ok names := a1
    have a2 : Bounds.updateBounds S.c.o.L (Bounds.fresh S.c.o.L) ((setup w c S).allBounds names) = (s, none) := a2
    cases hp : (setup w c S).assemble with
    | error e =>
      unfold Setup.build at h
      simp only [bind, Except.bind, hp] at h
      cases h
    | ok p =>
      simp only
      unfold problem
      rw [if_pos hl]
      simp only [bind, Except.bind, hp, a1, a2, orRaise]
      rfl
  · obtain ⟨c', k1, k2, -⟩ := after_condensed hc hd hp hn
    exact ⟨c', k1, k2⟩

/-- **C109** (finding: names are appended). Making a lap time configuration from a list of names appends the missing names to the user's list, so that every
other configuration made from this list has them too. -/
theorem C109_names (w : World) (bounds : Seq (BoundConfig EReal)) (inList : Bool) (bcs : List (BC EReal)) (cond : Bool) (a : Nat) :
    (step w (.new true bounds inList bcs (some (.list a)) cond)).2 = .ok none
    ∧ (step w (.new true bounds inList bcs (some (.list a)) cond)).1.nameLists a
        = w.nameLists a ++ ["states.time", "inputs.track_heading"].filter (fun n => n ∉ w.nameLists a)
    ∧ ∀ b, b ≠ a → (step w (.new true bounds inList bcs (some (.list a)) cond)).1.nameLists b = w.nameLists b := by
  refine ⟨rfl, ?_, fun b hb => if_neg hb⟩
  show (if a = a then lapNames.foldl appendNew (w.nameLists a) else w.nameLists a) = _
  rw [if_pos rfl]
  unfold lapNames appendNew
  simp only [List.foldl_cons, List.foldl_nil]
  by_cases h1 : "states.time" ∈ w.nameLists a <;> by_cases h2 : "inputs.track_heading" ∈ w.nameLists a <;> simp [h1, h2]

/-! ## Examples -/

/-- A world with one configuration of tuples, that of the example problem. -/
noncomputable def exWorld : World :=
  { boundLists := fun _ => [], nameLists := fun _ => [], next := 0
    cfgs := [⟨.tup (exSetup false).bounds, false, (exSetup false).bcs, .tup ["states.time"], false⟩] }

/-- A condensed problem is made from the configuration, another lap time configuration is made, and the condensed problem is made again: the problem is
the same, and the configuration has twice the bound of the derivative. -/
example : ∃ b b', (step (run exWorld [.setCondensed 0 true]) (.construct 0 (exSetup true))).2 = .ok (some b)
    ∧ (step (run exWorld ([.setCondensed 0 true, .construct 0 (exSetup true), .new true (.tup []) false [] none false] ++ [.setCondensed 0 true]))
        (.construct 0 (exSetup true))).2 = .ok (some b')
    ∧ b'.prob = b.prob := by
  obtain ⟨D0, g⟩ : ∃ D, (exSetup true).Good D := ⟨_, exSetup_good true⟩
  have e : setup exWorld ⟨.tup (exSetup false).bounds, false, (exSetup false).bcs, .tup ["states.time"], true⟩ (exSetup true) = exSetup true := rfl
  obtain ⟨b, b', h1, h2, h3, -⟩ := C109_again [.setCondensed 0 true, .construct 0 (exSetup true), .new true (.tup []) false [] none false]
    (w := exWorld) (i := 0) (S := exSetup true) (D := D0) rfl rfl (fun a ha => by cases ha) rfl (by rw [e]; exact g) (fun T hT n hn => by
      simp only [List.mem_cons, List.not_mem_nil, or_false, reduceCtorEq, false_or, Op.construct.injEq, true_and] at hT
      rw [hT] at hn
      exact hn)
  exact ⟨b, b', h1, h2, h3⟩

/-- A lifted problem after other configurations and problems were made. -/
example (T : Setup) : ∃ b, (step (run exWorld [.construct 0 T, .new false (.tup []) false [] none true, .construct 1 T]) (.construct 0 (exSetup false))).2
    = .ok (some b) := by
  obtain ⟨b, _, _, hb, _⟩ := build_ok (exSetup_good false)
  refine ⟨b, ?_⟩
  rw [C109_same (w := exWorld) (i := 0) _ rfl rfl (fun a ha => by cases ha) rfl (by simp) (exSetup false)]
  have e : exWorld.cfgs[0]? = some ⟨.tup (exSetup false).bounds, false, (exSetup false).bcs, .tup ["states.time"], false⟩ := rfl
  have k : setup exWorld ⟨.tup (exSetup false).bounds, false, (exSetup false).bcs, .tup ["states.time"], false⟩ (exSetup false) = exSetup false := rfl
  rw [step_construct e, problem_tuple (exSetup false) rfl, k, hb]
  rfl

/-- The example problem with another state in the place of `time`. -/
noncomputable def exOther : Setup :=
  { exSetup false with c := { linCond with o := { linCond.o with
      L := ⟨[("states", ["x"]), ("inputs", ["u"]), ("states_dot", ["x"]), ("con_outputs", ["p"])], ["states", "inputs", "states_dot", "con_outputs"], [], 3, 3⟩ } } }

/-- After a condensed problem with the state `time`, none can be made from the configuration for a model with another state. -/
example : ∃ e, (step (run (run exWorld [.setCondensed 0 true]) [.construct 0 (exSetup true), .setCondensed 0 false]) (.construct 0 exOther)).2 = .error e := by
  obtain ⟨p, _, hp, -⟩ := assemble_ok (exSetup_good true)
  refine C109_other_model (c := ⟨.tup (exSetup false).bounds, false, (exSetup false).bcs, .tup ["states.time"], true⟩) (p := p) (names := ["time"])
    rfl rfl ?_ rfl (n := "time") (by simp) ?_ false
  · have k : setup (run exWorld [.setCondensed 0 true]) ⟨.tup (exSetup false).bounds, false, (exSetup false).bcs, .tup ["states.time"], true⟩ (exSetup true)
      = exSetup true := rfl
    rw [k, hp]
  · intro k hk
    have : exOther.c.o.L.indexInDec "states_dot" "time" none = .error .keyError := by decide +kernel
    rw [this] at hk
    cases hk

end Lumos.Config.History
