import Verif.Drive.Follow
import Verif.Use.More
/-!
# C98: what a lap time simulation in use means
-/

namespace Lumos.Drive

open Lumos DecVar DecVar.Layout NLP Bounds Ocp OCP Track LapSim Lts Io Io.Mdl Use Lumos.Trans Veh

variable {P : Type} {E : Entry P} {V : P → Prop} {D : P → List ℝ → ℝ → Prop} {p q : P} {S : Setup} {t : Transcription}

/-- A solution of the discretised problem with the length `ms` and the parameters `q` is a lap of that car. -/
theorem isSolution_laps (hE : E.Good V D) (hq : V q) (h : Made (vehicleOnTrack (E.car p)) (E.unit p) t E.conf S) (ms : ℝ) (cyc : Bool)
    (x : List ℝ) : IsSolution ((E.kind S).at (some ms) q cyc) x ↔ Laps (E.car q) E.conf t S.c.o.L cyc ms x := by
  have hm := made_at q h
  have hU : Io.Mdl.Uses ((E.kind S).at (some ms) q cyc) (vehicleOnTrack (E.car q)) E.conf.conOutputs := by
    obtain ⟨u1, u2, u3, u4, u5⟩ := hm.uses_model ms
    exact ⟨u1, u2, u3, u4, u5⟩
  have hc := hE.usable q hq
  rw [C52_solution (onTrack_delivers (hE.car q hq) hc.outputs.1 hc.outputs.2) hU x]
  have enS : (vehicleOnTrack (E.car q)).names.states = onTrackNames.states := by rw [onTrack_names]
  have enspi : S.c.o.L.nspi = t.stages := h.uses.stages
  have eN : S.c.o.L.numIntervals = E.conf.numIntervals := by rw [h.layout]; rfl
  have e1 : (∀ s, s < S.c.o.L.numStages → HoldsAt (vehicleOnTrack (E.car q)) E.conf.conOutputs S.c.o.L x s (S.c.mesh.getD s 0 * ms)) ↔
      ∀ s, s < S.c.o.L.numStages → StageHolds (E.car q) E.conf.conOutputs S.c.o.L x s :=
    forall₂_congr fun s _ => holdsAt_stage (hE.car q hq) hc.outputs.2 _ _ _ _
  have e2 : (∀ i l' k : Nat, i < S.c.o.L.numIntervals → l' < S.c.o.L.nspi - 1 → ∀ n, (vehicleOnTrack (E.car q)).names.states[k]? = some n →
        ∑ j ∈ Finset.range S.c.o.L.nspi, S.c.o.A l' j * readAt S.c.o.L x "states" n (i * (S.c.o.L.nspi - 1) + j)
          = S.c.o.normLen.getD i 0 * ms *
            ∑ j ∈ Finset.range S.c.o.L.nspi, S.c.o.B l' j * readAt S.c.o.L x "states_dot" n (i * (S.c.o.L.nspi - 1) + j)) ↔
      (∀ i, i < E.conf.numIntervals → ∀ n ∈ onTrackNames.states, Steps t
            (fun j => readAt S.c.o.L x "states" n (i * (t.stages - 1) + j)) (fun j => readAt S.c.o.L x "states_dot" n (i * (t.stages - 1) + j))
            (((pointsOf E.conf.numIntervals E.conf.intervalPoints).getD (i + 1) 0 - (pointsOf E.conf.numIntervals E.conf.intervalPoints).getD i 0)
              * ms)) := by
    rw [enspi, enS, eN]
    simp only [h.uses.matA, h.uses.matB]
    constructor
    · intro H i hi n hn k hk
      obtain ⟨j, hj⟩ := List.mem_iff_getElem?.mp hn
      have := H i k j hi hk n hj
      rw [h.len i hi] at this
      exact this
    · intro H i k j hi hk n hn
      have := H i hi n (List.mem_of_getElem? hn) k hk
      rw [h.len i hi]
      exact this
  have e3 : (cyc = true → ∀ g n, (g = "states" ∨ g = "inputs") → n ∈ S.c.o.L.namesOf g → (g ++ "." ++ n) ∉ S.nonCyclic →
        readAt S.c.o.L x g n 0 = readAt S.c.o.L x g n (S.c.o.L.numStages - 1)) ↔
      (cyc = true →
            (∀ n ∈ onTrackNames.states, n ≠ "time" → ("states." ++ n) ∉ E.conf.nonCyclic →
              readAt S.c.o.L x "states" n 0 = readAt S.c.o.L x "states" n (S.c.o.L.numStages - 1)) ∧
            ∀ n ∈ onTrackNames.inputs, n ≠ "track_heading" → ("inputs." ++ n) ∉ E.conf.nonCyclic →
              readAt S.c.o.L x "inputs" n 0 = readAt S.c.o.L x "inputs" n (S.c.o.L.numStages - 1)) := by
    obtain ⟨n1, n2, -, -⟩ := h.names
    rw [h.plain.2.2.2.2, addNonCyclic_eq]
    have mem : ∀ w, w ∉ E.conf.nonCyclic ++ ["states.time", "inputs.track_heading"].filter (· ∉ E.conf.nonCyclic) ↔
        w ∉ E.conf.nonCyclic ∧ w ≠ "states.time" ∧ w ≠ "inputs.track_heading" := by
      intro w
      by_cases hw : w ∈ E.conf.nonCyclic
      · simp [hw]
      · simp only [List.mem_append, List.mem_filter, List.mem_cons, List.not_mem_nil, or_false, hw, false_or, not_false_eq_true, true_and, decide_true, and_true]
        tauto
    simp only [mem]
    refine imp_congr_right fun _ => ⟨fun H => ⟨fun n hn hne hnc => ?_, fun n hn hne hnc => ?_⟩, fun H g n hgn hn hnc => ?_⟩
    · refine H "states" n (Or.inl rfl) (by rw [n1]; exact hn) ⟨hnc, ?_, ?_⟩
      · intro e
        exact hne (String.append_right_inj "states." |>.mp e)
      · intro e
        have := congrArg String.toList e
        simp [String.toList_append] at this
    · refine H "inputs" n (Or.inr rfl) (by rw [n2]; exact hn) ⟨hnc, ?_, ?_⟩
      · intro e
        have := congrArg String.toList e
        simp [String.toList_append] at this
      · intro e
        exact hne (String.append_right_inj "inputs." |>.mp e)
    · obtain ⟨hnc, h1, h2⟩ := hnc
      rcases hgn with rfl | rfl
      · rw [n1] at hn
        exact H.1 n hn (by rintro rfl; exact h1 rfl) hnc
      · rw [n2] at hn
        exact H.2 n hn (by rintro rfl; exact h2 rfl) hnc
  constructor
  · rintro ⟨a, b, c⟩
    exact ⟨e1.mp b, e2.mp a, e3.mp c⟩
  · rintro ⟨a, b, c⟩
    exact ⟨e2.mpr b, e1.mpr a, e3.mpr c⟩

end Lumos.Drive
