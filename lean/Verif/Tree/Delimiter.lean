import Verif.Tree.CompositionProps

/-!
# C43, C45: paths with any delimiter

`_get_subtree(path, delimiter)` (lumos/models/tree_utils.py:59-67) and `get_submodel(name, delimiter)`
(lumos/models/composition.py:160-178) take a delimiter.
-/

namespace Lumos.Trees

open Lumos

variable {V : Type}

/-- Going down by one name. -/
def Tree.down (t : Tree V) (n : String) : Py (Tree V) :=
  match t.children.lookup n with
  | some c => .ok c
  | none => .error .keyError

/-- Going down by one name. -/
def Mod.down (m : Mod V) (n : String) : Py (Mod V) :=
  match m.subs.lookup n with
  | some c => .ok c
  | none => .error .keyError

theorem Tree.getNames_down (ns : List String) : ∀ t : Tree V, t.getNames ns = ns.foldlM Tree.down t := by
  induction ns with
  | nil => intro t; rfl
  | cons n ns ih =>
    intro t
    rw [List.foldlM_cons, Tree.getNames]
    cases h : t.children.lookup n with
    | none => simp [Tree.down, h, bind, Except.bind]
    | some c => simp only [Tree.down, h, bind, Except.bind]; exact ih c

theorem Mod.getNames_down (ns : List String) : ∀ m : Mod V, m.getNames ns = ns.foldlM Mod.down m := by
  induction ns with
  | nil => intro m; rfl
  | cons n ns ih =>
    intro m
    rw [List.foldlM_cons, Mod.getNames]
    cases h : m.subs.lookup n with
    | none => simp [Mod.down, h, bind, Except.bind]
    | some c => simp only [Mod.down, h, bind, Except.bind]; exact ih c

theorem pyJoin_eq_empty (c : Char) {ns : List String} (h : ∀ n ∈ ns, c ∉ n.toList) (hn : ns ≠ []) (he : ns ≠ [""]) :
    pyJoin c ns ≠ "" := by
  intro e
  have := pySplit_join c h hn
  rw [e] at this
  exact he (by rw [← this]; rfl)

/-- **C43 (any delimiter).** With any delimiter that the names do not contain, the subtree at the joined names is reached by
going down one name after the other (KeyError at the first child that does not exist); the empty path is the tree. -/
theorem C43_any_delimiter (t : Tree V) (c : Char) :
    Tree.getSubtree t "" c = .ok t
    ∧ ∀ ns : List String, (∀ n ∈ ns, c ∉ n.toList) → ns ≠ [] → ns ≠ [""] →
      Tree.getSubtree t (pyJoin c ns) c = ns.foldlM Tree.down t := by
  refine ⟨rfl, fun ns h hn he => ?_⟩
  rw [Tree.getSubtree, Tree.resolve, if_neg (pyJoin_eq_empty c h hn he), pySplit_join c h hn, Tree.getNames_down]

/-- **C45 (any delimiter).** The same for submodels; here there is no empty path. -/
theorem C45_any_delimiter (m : Mod V) (c : Char) (ns : List String) (h : ∀ n ∈ ns, c ∉ n.toList) (hn : ns ≠ []) :
    Mod.getSubmodel m (pyJoin c ns) c = ns.foldlM Mod.down m := by
  rw [Mod.getSubmodel, pySplit_join c h hn, Mod.getNames_down]

/-- A name with a dot in it, reached with a slash as the delimiter. -/
example : Tree.getSubtree (.node (.dict []) [("car", .node (.dict []) [("mf5.2", .node (.dict [("mu", .val 1)]) [])])] : Tree Nat)
    "car/mf5.2" '/' = .ok (.node (.dict [("mu", .val 1)]) []) := by
  have := (C43_any_delimiter (.node (.dict []) [("car", .node (.dict []) [("mf5.2", .node (.dict [("mu", .val 1)]) [])])] : Tree Nat)
    '/').2 ["car", "mf5.2"] (by decide) (by decide) (by decide)
  have e : pyJoin '/' ["car", "mf5.2"] = "car/mf5.2" := by decide +kernel
  rw [e] at this
  rw [this]
  simp [Tree.down, Tree.children, bind, Except.bind, pure, Except.pure]

end Lumos.Trees
