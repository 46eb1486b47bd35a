import Verif.Io.Vectors

/-!
# C50: dictionaries filled with one value

`make_const_dict` (lumos/models/base.py:392-394).
-/

namespace Lumos.Io

open Lumos

variable {V : Type}

theorem lookup_const (ns : List String) (v : V) : ∀ (d : Dict V) (n : String),
    (ns.foldl (fun (d : Dict V) (n : String) => d.set n v) d).lookup n = if n ∈ ns then some v else d.lookup n := by
  induction ns with
  | nil => intro d n; simp
  | cons k ns ih =>
    intro d n
    rw [List.foldl_cons, ih, Dict.lookup_set]
    by_cases h : n ∈ ns
    · simp [h]
    · by_cases hk : n = k
      · simp [hk]
      · simp [h, hk]

/-- **C50 (one value for a group).** `make_const_dict(group, v)` has the names of the group as its keys, each with the value
`v`, and nothing else; the vector made from it has `v` at every position. -/
theorem C50_const_dict {nm : Names} {g : String} {ns : List String} (hg : nm.group g = .ok ns) (v : V) :
    ∃ d : Dict V, nm.makeConstDict g v = .ok d ∧ (∀ n, d.lookup n = if n ∈ ns then some v else none)
      ∧ ("self" ∉ ns ∧ "group" ∉ ns → nm.makeVector g d = .ok (List.replicate ns.length v)) := by
  have hl : ∀ n, (ns.foldl (fun (d : Dict V) (n : String) => d.set n v) []).lookup n = if n ∈ ns then some v else none :=
    fun n => by rw [lookup_const]; rfl
  have hk : ∀ n, n ∈ Dict.keys (ns.foldl (fun (d : Dict V) (n : String) => d.set n v) []) ↔ n ∈ ns := fun n => by
    rw [← Dict.lookup_isSome, hl]
    by_cases h : n ∈ ns <;> simp [h]
  refine ⟨ns.foldl (fun (d : Dict V) (n : String) => d.set n v) [], by simp [Names.makeConstDict, hg, bind, Except.bind, pure, Except.pure],
    hl, fun hp => ?_⟩
  obtain ⟨w, hw, hlen, hlist⟩ := makeVector_ok hg (d := ns.foldl (fun (d : Dict V) (n : String) => d.set n v) [])
    ⟨fun h => hp.1 ((hk _).mp h), fun h => hp.2 ((hk _).mp h)⟩ fun n hn => (hk n).mpr hn
  rw [hw]
  congr 1
  rw [List.eq_replicate_iff]
  refine ⟨hlen, fun a ha => ?_⟩
  obtain ⟨i, hi⟩ := List.mem_iff_getElem?.mp ha
  have hi' : i < ns.length := by rw [← hlen]; exact (List.getElem?_eq_some_iff.mp hi).1
  obtain ⟨b, hb, hb'⟩ := hlist i _ (List.getElem?_eq_getElem hi')
  rw [hl, if_pos (List.getElem_mem hi')] at hb'
  rw [hi] at hb
  simp only [Option.some.injEq] at hb hb'
  rw [hb, hb']

/-- **C50 (reading what is not there).** Reading a variable that the group does not have is a KeyError, whatever the vector;
reading one of its names from a vector that ends before its position is an IndexError. -/
theorem C50_read_missing {nm : Names} {g : String} {ns : List String} (hg : nm.group g = .ok ns) (v : List V) (n : String) :
    (n ∉ ns → nm.readVar g v n = .error .keyError)
    ∧ (n ∈ ns → v.length ≤ ns.idxOf n → nm.readVar g v n = .error .indexError) := by
  refine ⟨fun h => by simp [Names.readVar, Names.varIndex, hg, h, bind, Except.bind], fun h hl => ?_⟩
  simp [Names.readVar, Names.varIndex, hg, h, bind, Except.bind, List.getElem?_eq_none hl]

/-- The states of the example names. -/
example : exNames.group "states" = .ok ["x", "v"] ∧ exNames.makeConstDict "states" 7 = .ok [("x", 7), ("v", 7)] := by
  decide +kernel

/-- Both ways of asking for what is not there. -/
example : exNames.readVar "states" [1] "v" = .error .indexError ∧ exNames.readVar "states" [1, 2] "w" = .error .keyError := by
  decide +kernel

end Lumos.Io
