import Verif.Bounds.Odd

/-!
# Exactly which requests for bounds are accepted (C19)
-/

namespace Lumos.Bounds
open Lumos DecVar DecVar.Layout

variable {V : Type}

/-- A number, an array of one number, or as many numbers as there are variables. -/
def BVal.Fits (n : Nat) : BVal V → Prop
  | .scalar _ => True
  | .array vs => vs.length = 1 ∨ vs.length = n

/-- The request names a variable of the problem, at a stage that exists (counted from the end if negative) or at all stages. -/
def Req.Known (L : Layout) (r : Req V) : Prop :=
  (r.group = "global" ∧ r.name ∈ L.globals) ∨
    (r.group ≠ "global" ∧ fullName r.group r.name ∈ L.stageVarNames ∧
      ∀ t, r.stage = some t → -(L.numStages : Int) ≤ t ∧ t < L.numStages)

variable [LinearOrder V]

theorem leAll_iff {n : Nat} (hn : 0 < n) {lb ub : BVal V} (hl : lb.Fits n) (hu : ub.Fits n) :
    leAll lb ub = .ok true ↔ ∀ k < n, ∀ a b, lb.at k = some a → ub.at k = some b → a ≤ b := by
  have hone : ∀ vs : List V, vs.length = 1 → ∃ v, vs = [v] := fun vs h => List.length_eq_one_iff.mp h
  have hat : ∀ (v : V) (k : Nat), (BVal.array [v]).at k = some v := fun _ _ => rfl
  have hmany : ∀ (vs : List V) (k : Nat), vs.length ≠ 1 → (BVal.array vs).at k = vs[k]? := by
    intro vs k h
    match vs, h with
    | [], _ => rfl
    | _ :: _ :: _, _ => rfl
  have hall : ∀ (vs : List V) (p : V → Prop) [DecidablePred p], vs.length = n →
      ((vs.all fun v => decide (p v)) = true ↔ ∀ k < n, ∀ b, vs[k]? = some b → p b) := by
    intro vs p _ h
    rw [List.all_eq_true]
    constructor
    · intro H k _ b hb
      simpa using H b (List.mem_of_getElem? hb)
    · intro H b hb
      obtain ⟨k, hk, e⟩ := List.mem_iff_getElem.mp hb
      simpa using H k (h ▸ hk) b (by rw [List.getElem?_eq_getElem hk, e])
  have hc : ∀ (p : Prop), (∀ k < n, p) ↔ p := fun p => ⟨fun H => H 0 hn, fun H _ _ => H⟩
  -- a value for all variables, or one each
  have shape : ∀ b : BVal V, b.Fits n → (∃ v, (b = .scalar v ∨ b = .array [v])) ∨ (∃ vs, b = .array vs ∧ vs.length ≠ 1 ∧ vs.length = n) := by
    intro b h
    match b, h with
    | .scalar v, _ => exact .inl ⟨v, .inl rfl⟩
    | .array vs, h =>
      by_cases h1 : vs.length = 1
      · obtain ⟨v, rfl⟩ := hone vs h1
        exact .inl ⟨v, .inr rfl⟩
      · exact .inr ⟨vs, rfl, h1, h.resolve_left h1⟩
  have hsc : ∀ (v : V) (k : Nat), (BVal.scalar v).at k = some v := fun _ _ => rfl
  have one : ∀ (a b : V), ((Except.ok (decide (a ≤ b)) : Py Bool) = .ok true ↔ a ≤ b) := by simp
  rcases shape lb hl with ⟨a, rfl | rfl⟩ | ⟨as, rfl, ha1, han⟩ <;> rcases shape ub hu with ⟨b, rfl | rfl⟩ | ⟨bs, rfl, hb1, hbn⟩
  · simp [leAll, BVal.at, hc]
  · simp [leAll, BVal.at, hc]
  · simp only [leAll, Except.ok.injEq, hall bs (fun b => a ≤ b) hbn, hmany _ _ hb1, hsc, Option.some.injEq]
    exact ⟨fun H k hk x y hx hy => hx ▸ H k hk y hy, fun H k hk y hy => H k hk a y rfl hy⟩
  · simp [leAll, BVal.at, hc]
  · simp [leAll, BVal.at, hc]
  · have : ¬ [a].length = bs.length := fun h => hb1 h.symm
    simp only [leAll, if_neg this, Except.ok.injEq, hall bs (fun b => a ≤ b) hbn, hmany _ _ hb1, hat, Option.some.injEq]
    exact ⟨fun H k hk x y hx hy => hx ▸ H k hk y hy, fun H k hk y hy => H k hk a y rfl hy⟩
  · simp only [leAll, Except.ok.injEq, hall as (fun a => a ≤ b) han, hmany _ _ ha1, hsc, Option.some.injEq]
    exact ⟨fun H k hk x y hx hy => hy ▸ H k hk x hx, fun H k hk x hx => H k hk x b hx rfl⟩
  · have : ¬ as.length = [b].length := ha1
    have e : leAll (.array as) (.array [b]) = .ok (as.all fun a => decide (a ≤ b)) := by
      match as, ha1 with
      | [], _ => simp [leAll]
      | _ :: _ :: _, _ => simp [leAll]
    rw [e]
    simp only [Except.ok.injEq, hall as (fun a => a ≤ b) han, hmany _ _ ha1, hat, Option.some.injEq]
    exact ⟨fun H k hk x y hx hy => hy ▸ H k hk x hx, fun H k hk x hx => H k hk x b hx rfl⟩
  · have : as.length = bs.length := han.trans hbn.symm
    simp only [leAll, if_pos this, Except.ok.injEq, List.all_eq_true, decide_eq_true_eq, hmany _ _ ha1, hmany _ _ hb1]
    constructor
    · intro H k _ a b hx hy
      exact H (a, b) (List.mem_of_getElem? (List.getElem?_zip_eq_some.mpr ⟨hx, hy⟩))
    · intro H p hp
      obtain ⟨k, hk⟩ := List.mem_iff_getElem?.mp hp
      rw [List.getElem?_zip_eq_some] at hk
      exact H k (han ▸ (List.getElem?_eq_some_iff.mp hk.1).1) _ _ hk.1 hk.2

omit [LinearOrder V] in
theorem assign_ok (x : List V) (idx : Idx) (b : BVal V) : (∃ y, assign x idx b = .ok y) ↔ b.Fits (positions idx).length := by
  match idx, b with
  | .scalar i, .scalar v => simp [assign, BVal.Fits]
  | .scalar i, .array [v] => simp [assign, BVal.Fits]
  | .scalar i, .array [] => simp [assign, BVal.Fits, positions]
  | .scalar i, .array (_ :: _ :: _) => simp [assign, BVal.Fits, positions]
  | .array is, .scalar v => simp [assign, BVal.Fits]
  | .array is, .array vs =>
    by_cases h : vs.length = is.length
    · simp [assign, BVal.Fits, positions, h]
    · match vs with
      | [] => simp [assign, BVal.Fits, positions] at h ⊢; simp [h]
      | [v] => simp [assign, BVal.Fits, positions] at h ⊢; simp [h]
      | _ :: _ :: _ => simp [assign, BVal.Fits, positions] at h ⊢; simp [h]

/-- A request for bounds (`set_state_bounds` and its like, or one entry of `update_bounds` or of the boundary conditions) is
accepted exactly if its variable exists, each side is one number or one per variable - lower bounds for all stages being
a number or one per stage - and no lower bound is above the upper one. -/
theorem C19_accepts {L : Layout} (hn : 0 < L.numStages) (s : St V) (r : Req V) :
    (setVarBounds L s r.group r.name r.stage r.arg).2 = none ↔
      r.Known L ∧ r.arg.lb.Fits (r.count L) ∧ r.arg.ub.Fits (r.count L) ∧
      (r.group ≠ "global" → r.stage = none → ∀ vs, r.arg.lb = .array vs → vs.length = L.numStages) ∧
      ∀ k < r.count L, ∀ a b, r.arg.lb.at k = some a → r.arg.ub.at k = some b → a ≤ b := by
  have hidx : (∃ idx, L.indexInDec r.group r.name r.stage = .ok idx) ↔ r.Known L := by
    unfold Req.Known indexInDec
    by_cases hg : r.group = "global"
    · by_cases hm : r.name ∈ L.globals <;> simp [hg, hm, globalEnum, Except.map]
    · cases hst : r.stage with
      | none => by_cases hm : fullName r.group r.name ∈ L.stageVarNames <;>
          simp [hg, hm, stageEnum, bind, Except.bind, pure, Except.pure]
      | some t =>
        by_cases hm : fullName r.group r.name ∈ L.stageVarNames <;> by_cases hb : L.badStage t = true <;>
          simp [hg, hm, hb, stageEnum, bind, Except.bind, pure, Except.pure] <;>
          simp [badStage] at hb <;> omega
  have hcount : ∀ idx, L.indexInDec r.group r.name r.stage = .ok idx → (positions idx).length = r.count L ∧
      (idx matches .array _ ↔ r.group ≠ "global" ∧ r.stage = none) := by
    intro idx h
    rcases indexInDec_ok h with ⟨hg, _, rfl⟩ | ⟨hg, hs, _, rfl⟩ | ⟨hg, _, t, hs, _, rfl⟩
    · simp [positions, Req.count, hg]
    · simp [positions, Req.count, hg, hs]
    · simp [positions, Req.count, hg, hs]
  have hpos : 0 < r.count L := by unfold Req.count; split <;> omega
  constructor
  · intro h
    obtain ⟨idx, lb', ub', h1, h2, h3, h4, _⟩ := setVarBounds_ok (s' := (setVarBounds L s r.group r.name r.stage r.arg).1)
      (Prod.ext rfl h)
    obtain ⟨hc, ha⟩ := hcount idx h1
    have f1 := (assign_ok _ _ _).mp ⟨_, h3⟩
    have f2 := (assign_ok _ _ _).mp ⟨_, h4⟩
    rw [hc] at f1 f2
    refine ⟨hidx.mp ⟨_, h1⟩, f1, f2, ?_, (leAll_iff hpos f1 f2).mp h2⟩
    intro hg hs vs hv
    by_contra hne
    have hk := hidx.mp ⟨_, h1⟩
    rcases hk with ⟨e, _⟩ | ⟨_, hm, _⟩
    · exact hg e
    · have := C19_size s hg hm hv hne
      rw [hs] at h
      rw [this] at h
      simp at h
  · rintro ⟨hk, f1, f2, hsz, hle⟩
    obtain ⟨idx, h1⟩ := hidx.mpr hk
    obtain ⟨hc, ha⟩ := hcount idx h1
    obtain ⟨lb', h3⟩ := (assign_ok s.lb idx r.arg.lb).mpr (hc ▸ f1)
    obtain ⟨ub', h4⟩ := (assign_ok s.ub idx r.arg.ub).mpr (hc ▸ f2)
    have hso : sizeOk L idx r.arg.lb = true := by
      unfold sizeOk
      split
      · rename_i is vs hv
        obtain ⟨hg, hs⟩ := ha.mp rfl
        simpa using hsz hg hs vs hv
      · rfl
    simp [setVarBounds, h1, hso, (leAll_iff hpos f1 f2).mpr hle, h3, h4]

/-- Seven lower bounds and one upper bound for the seven stages of `exLayout` are accepted. -/
example : 0 < exLayout.numStages ∧ (setVarBounds exLayout (fresh exLayout : St (Fin 9)) "states" "x" none
    (.pair (.array [0, 1, 2, 3, 4, 5, 6]) (.scalar 7))).2 = none := by
  refine ⟨?_, ?_⟩ <;> decide +kernel

end Lumos.Bounds
