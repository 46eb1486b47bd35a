import Verif.Use.Errors
/-!
# C97: a problem tuned by calls is the problem constructed with those settings
-/

namespace Lumos.Use

open Lumos DecVar DecVar.Layout NLP Bounds Ocp OCP

variable {P : Type} {J : Kind P} {V : Option ℝ → P → Prop} {D : P → List ℝ → ℝ → Prop} {p : P} {u : Use P} {cs : List (Call P)}

/-- The kind whose constructor is given the scales and the mesh scale now in force, cyclic or not as it is now. -/
def Kind.tuned (J : Kind P) (b : Book P) : Kind P :=
  { J with S := { J.S with builtScale := b.scale, scales := b.scales, isCyclic := b.cyclic } }

theorem isSolution_tuned (b : Book P) (x : List ℝ) :
    IsSolution (b.setup J) x ↔ IsSolution ((book (J.tuned b) b.params []).setup (J.tuned b)) x :=
  ⟨fun h => ⟨h.1, h.2, h.3, h.4, h.5⟩, fun h => ⟨h.1, h.2, h.3, h.4, h.5⟩⟩

theorem tuned_good (hJ : J.Good V D) {b : Book P} (hs : Sane J V b)
    (hc : J.S.isCondensed = true → ((J.tuned b).at b.scale b.params b.cyclic).Good (D b.params)) :
    ((J.tuned b).at b.scale b.params b.cyclic).Good (D b.params) := by
  by_cases hcd : J.S.isCondensed = true
  · exact hc hcd
  · obtain ⟨h1, h2, h3, h4, h5, h6, h7, h8, h9, h10, h11, h12, h13, h14, h15⟩ := good_cyc (hJ.good _ _ hs.valid) hs.cyc
    exact ⟨h1, h2, h3, h4, Iff.rfl, h6, h7, h8, h9, h10, h11, fun e => absurd e hcd, fun c hc => (hs.scales c hc).1,
      fun c hc => (hs.scales c hc).2, h15⟩

/-- **C97 (history does not matter).** A problem on which scales, mesh scale and parameters were changed, components added and
deleted again, structures queried and solves run — but which now has the objectives of the construction, no constraints of the
user's own, and limits that fit — is the problem which the constructor makes from the settings now in force: the same scales, the
same feasible points, the same objective. (Condensed: provided the constructor would accept those settings.) -/
theorem C97_fresh (hJ : J.Good V D) (hv : V J.S.builtScale p) (hu : construct J p = .ok u) (hcs : GoodCalls J V (Book.init J p) cs)
    (hlim : (book J p cs).limits = (book J p cs).rows J) (hcons : (book J p cs).cons = []) (hobjs : (book J p cs).objs = [])
    (htime : (book J p cs).time = true) (hpen : (book J p cs).penalty = J.S.laptime)
    (hc : J.S.isCondensed = true →
      ((J.tuned (book J p cs)).at (book J p cs).scale (book J p cs).params (book J p cs).cyclic).Good (D (book J p cs).params)) :
    ∃ v, construct (J.tuned (book J p cs)) (book J p cs).params = .ok v ∧ v.now.scales = (u.run cs).now.scales ∧
      ∀ x : List ℝ, x.length = J.S.c.o.L.numDec →
        ((u.run cs).Feasible (vdiv x v.now.scales) ↔ v.Feasible (vdiv x v.now.scales)) ∧
        (u.run cs).now.objective (vdiv x v.now.scales) = v.now.objective (vdiv x v.now.scales) := by
  obtain ⟨_, _, _, h⟩ := used hJ hv hu hcs
  have hg := tuned_good hJ h.sane hc
  have hK : (J.tuned (book J p cs)).Good (fun ms q => ms = (book J p cs).scale ∧ q = (book J p cs).params) D := by
    refine ⟨?_, ?_⟩
    · rintro ms q ⟨rfl, rfl⟩
      exact hg
    · rintro ms ms' q q' ⟨_, rfl⟩ ⟨_, rfl⟩
      rfl
  obtain ⟨v, hv'⟩ := C97_construct hK (p := (book J p cs).params) ⟨rfl, rfl⟩
  have hnil : GoodCalls (J.tuned (book J p cs)) (fun ms q => ms = (book J p cs).scale ∧ q = (book J p cs).params)
    (Book.init (J.tuned (book J p cs)) (book J p cs).params) [] := trivial
  have hscales : v.now.scales = (u.run cs).now.scales := by
    obtain ⟨_, _, _, h'⟩ := used hK ⟨rfl, rfl⟩ hv' hnil
    have l1 := h'.now.reach.inv.scales.1
    have l2 := h.now.reach.inv.scales.1
    apply List.ext_getElem?
    intro i
    by_cases hi : i < J.S.c.o.L.numDec
    · obtain ⟨w, w1, w2⟩ := C01_index_surjective hg.cond.ocp.made i hi
      rw [C97_scales hJ hv hu hcs w1 w2]
      exact C97_scales hK ⟨rfl, rfl⟩ hv' hnil w1 w2
    · have l1' : v.now.scales.length = J.S.c.o.L.numDec := l1
      rw [List.getElem?_eq_none (l := v.now.scales) (by omega), List.getElem?_eq_none (l := (u.run cs).now.scales) (by omega)]
  refine ⟨v, hv', hscales, fun x hx => ⟨?_, ?_⟩⟩
  · have hU : (book J p cs).UserHolds x := by
      intro c hc
      rw [hcons] at hc
      cases hc
    rw [show (u.run cs).Feasible (vdiv x v.now.scales) = (u.run cs).Feasible (vdiv x (u.run cs).now.scales) by rw [hscales]]
    by_cases hcd : J.S.isCondensed = true
    · rw [C97_meaning_condensed hJ hv hu hcs hcd hx]
      refine Iff.trans ?_ (C97_meaning_condensed hK ⟨rfl, rfl⟩ hv' hnil hcd hx).symm
      constructor
      · rintro ⟨_, ⟨y, y1, y2, y3⟩, _⟩
        exact ⟨rfl, ⟨y, y1, y2, (isSolution_tuned _ y).mp y3⟩, fun c hc => (nomatch hc)⟩
      · rintro ⟨_, ⟨y, y1, y2, y3⟩, _⟩
        exact ⟨hlim, ⟨y, y1, y2, (isSolution_tuned _ y).mpr y3⟩, hU⟩
    · have hcd' : J.S.isCondensed = false := by simpa using hcd
      rw [C97_meaning hJ hv hu hcs hcd' hx]
      refine Iff.trans ?_ (C97_meaning hK ⟨rfl, rfl⟩ hv' hnil hcd' hx).symm
      constructor
      · rintro ⟨_, y, _⟩
        exact ⟨rfl, (isSolution_tuned _ x).mp y, fun c hc => (nomatch hc)⟩
      · rintro ⟨_, y, _⟩
        exact ⟨hlim, (isSolution_tuned _ x).mpr y, hU⟩
  · have e1 := C97_objective hJ hv hu hcs hx
    have e2 := C97_objective hK ⟨rfl, rfl⟩ hv' hnil hx
    rw [hscales, e1]
    rw [show v.run [] = v from rfl, hscales] at e2
    rw [e2]
    have n1 : (book J p cs).objNames ≠ [] := by
      unfold Book.objNames
      rw [htime]
      simp
    have n2 : (book (J.tuned (book J p cs)) (book J p cs).params []).objNames ≠ [] := by
      show (["time"] ++ _) ++ _ ≠ []
      simp
    rw [if_neg n1, if_neg n2]
    congr 1
    unfold Book.cost
    dsimp only
    rw [htime, hpen, hobjs]
    rfl

end Lumos.Use
