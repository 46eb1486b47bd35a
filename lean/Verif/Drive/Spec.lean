import Verif.Drive.Model
import Verif.Use.Spec
import Verif.Lts.Problem
/-!
# C98: specification — what a user of a lap time simulation has asked for

`Diary` adds to the book of `Verif/Use/Spec` the road: from the calls alone, which road the simulation is on.
-/

namespace Lumos.Drive

open Lumos DecVar DecVar.Layout NLP Bounds Ocp OCP Track LapSim Lts Io Use Lumos.Trans Veh

variable {P : Type}

/-- What the calls so far ask for. -/
structure Diary (P : Type) where
  book : Book P
  road : Option RaceTrack

/-- The limits which a road sets for the curvature, the heading and the lateral position at the distances `mesh`, if it is nowhere
narrower than nothing. -/
noncomputable def roadCalls (mesh : List ℝ) (t : RaceTrack) : List (Bounds.Call EReal) := by
  classical
  exact if Wide mesh t then [.updateBounds (threeBounds mesh t)] else []

/-- Every call, noted. A track file that cannot be read changes nothing. -/
noncomputable def Diary.note (J : Kind P) (d : Diary P) : Op P → Diary P
  | .call c => { d with book := d.book.note J c }
  | .setTrack file =>
    match fromTumCsv file with
    | .error _ => d
    | .ok t => { book := { d.book with scale := some t.totalDistance, bounds := d.book.bounds ++ roadCalls (distanceMesh J.S t) t }
                 road := some t }

/-- What the diary says after the constructor and a history. -/
noncomputable def diary (J : Kind P) (p : P) (file : Py (List Row)) (ops : List (Op P)) : Diary P :=
  (Op.setTrack file :: ops).foldl (Diary.note J) ⟨Book.init J p, none⟩

/-- What a user must respect in one call (`Use.GoodCall`): parameters stay among those, `V`, for which the vehicle is right. Any
track may be set, readable or not. -/
def GoodOp (J : Kind P) (V : P → Prop) (d : Diary P) : Op P → Prop
  | .setTrack _ => True
  | .call (.solve _) => J.jax = true → d.book.objNames ≠ [] ∧ (J.exact = true → d.book.changed = false)
  | .call c => GoodCall J (fun ms p => ms ≠ none ∧ V p) d.book c

/-- A history of such calls. -/
def GoodOps (J : Kind P) (V : P → Prop) (d : Diary P) : List (Op P) → Prop
  | [] => True
  | o :: ops => GoodOp J V d o ∧ GoodOps J V (d.note J o) ops

/-- What is asked of the vehicle: for all parameters in `V` it is a vehicle with the same names, the configuration can be used with
it, and its derivatives are right on `D p`. -/
structure Entry.Good (E : Entry P) (V : P → Prop) (D : P → List ℝ → ℝ → Prop) : Prop where
  car : ∀ p, V p → Car (E.car p)
  usable : ∀ p, V p → Usable (E.car p) E.conf
  backed : ∀ p, V p → Backed (E.car p) E.conf (E.unit p) (D p)
  names : ∀ p q, V p → V q → (E.car p).names = (E.car q).names

/-- A lap of the car `v`: at every stage the equations of the vehicle on the track hold, over every interval the equations of the
transcription for the part of `length` it covers, and for a closed lap both ends agree. -/
structure Laps (v : Mdl ℝ) (cf : Conf) (t : Transcription) (L : Layout) (closed : Bool) (length : ℝ) (x : List ℝ) : Prop where
  stages : ∀ s, s < L.numStages → StageHolds v cf.conOutputs L x s
  steps : ∀ i, i < cf.numIntervals → ∀ n ∈ onTrackNames.states, Steps t
    (fun j => readAt L x "states" n (i * (t.stages - 1) + j)) (fun j => readAt L x "states_dot" n (i * (t.stages - 1) + j))
    (((pointsOf cf.numIntervals cf.intervalPoints).getD (i + 1) 0 - (pointsOf cf.numIntervals cf.intervalPoints).getD i 0) * length)
  closes : closed = true →
    (∀ n ∈ onTrackNames.states, n ≠ "time" → ("states." ++ n) ∉ cf.nonCyclic →
      readAt L x "states" n 0 = readAt L x "states" n (L.numStages - 1)) ∧
    ∀ n ∈ onTrackNames.inputs, n ≠ "track_heading" → ("inputs." ++ n) ∉ cf.nonCyclic →
      readAt L x "inputs" n 0 = readAt L x "inputs" n (L.numStages - 1)

end Lumos.Drive
