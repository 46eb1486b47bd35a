import Verif.Log.TableProps
import Verif.Ocp.BuildExample
/-!
# C72: the mesh column, feasibility and the sequence of tables
-/

namespace Lumos.Log

open Lumos DecVar DecVar.Layout NLP Ocp OCP Bounds

variable {S : Setup} {D : List ℝ → ℝ → Prop}

/-! ## The mesh column -/

/-- **C72 (mesh column).** On a fixed mesh the logged mesh is the mesh; when the mesh scale is optimised it is the mesh divided by the
scale of `mesh_scale`. -/
theorem C72_mesh (h : S.Good D) {b : Built} (hb : S.build = .ok b) {z : List ℝ} (hz : z.length = S.c.o.L.numDec) (s : Nat) :
    (S.c.o.fixedScale ≠ none → S.c.mesh.getD s 0 * readScale S.c.o z = meshAt S (vmul z b.prob.scales) s)
    ∧ (S.c.o.fixedScale = none → S.c.mesh.getD s 0 * readScale S.c.o z
        = meshAt S (vmul z b.prob.scales) s / askedScale S.scales "global" "mesh_scale") := by
  obtain ⟨b', o, t, h1, _, h2, _, _, _, _, h7, _⟩ := build_ok h
  rw [hb] at h1
  cases h1
  have hxl : (vmul z b.prob.scales).length = S.c.o.L.numDec := by rw [length_vmul, hz, h2.inv.scales.1, Nat.min_self]
  unfold meshAt
  rw [readScale_eq h hxl, readScale_eq h hz]
  constructor
  · intro hf
    obtain ⟨m, hm⟩ := Option.ne_none_iff_exists'.1 hf
    simp only [scaleOf, hm]
  · intro hf
    have hm := h.cond.ocp.mesh.2 hf
    have hlt := posM_lt hm
    have hidx : S.c.o.L.indexInDec "global" "mesh_scale" none = .ok (.scalar S.c.o.posM) := by
      simp [indexInDec, globalEnum, hm, Except.map, posM]
    have hs := h7 (.glob "mesh_scale") S.c.o.posM hm hidx
    have hs' : b.prob.scales.getD S.c.o.posM 0 = askedScale S.scales "global" "mesh_scale" := by
      rw [List.getD_eq_getElem?_getD, hs]
      rfl
    simp only [scaleOf, hf]
    rw [getD_vmul (by rw [hz, h2.inv.scales.1]), hs']
    have := askedScale_ne h.nonzero "global" "mesh_scale"
    field_simp

/-! ## A point is feasible exactly when the logged constraints are zero -/

theorem reshape2_flatten {n w : Nat} {a : List ℝ} {m : List (List ℝ)} (h : reshape2 n w a = .ok m) : m.flatten = a := by
  unfold reshape2 at h
  split at h
  · rename_i hl
    cases h
    rw [Np.flatten_reshapeRows, List.take_of_length_le (by omega)]
  · cases h

theorem splitCons_parts {d : List (String × List ℝ)} {iv : List ℝ} {st : List (List ℝ)} {cols : List String}
    (h : splitCons S d = .ok (iv, st, cols)) :
    if S.isCondensed = true then part d "model_algebra" = .ok (iv ++ st.flatten)
    else part d "continuity" = .ok iv ∧ part d "model_algebra" = .ok st.flatten := by
  unfold splitCons at h
  dsimp only at h
  by_cases hc : S.isCondensed = true
  · rw [if_pos hc] at h ⊢
    obtain ⟨c, h1, h⟩ := bind_ok h
    obtain ⟨m, h2, h⟩ := bind_ok h
    obtain ⟨y, h3, h⟩ := bind_ok h
    cases h
    rw [h1, reshape2_flatten h2, List.take_append_drop]
  · rw [if_neg hc] at h ⊢
    obtain ⟨i, h1, h⟩ := bind_ok h
    obtain ⟨a, h2, h⟩ := bind_ok h
    obtain ⟨m, h3, h⟩ := bind_ok h
    obtain ⟨d', h4, h⟩ := bind_ok h
    obtain ⟨y, h5, h⟩ := bind_ok h
    cases h
    rw [h1, h2, reshape2_flatten h3]
    exact ⟨rfl, rfl⟩

theorem zip_zero_iff {a : List String} {r : List ℝ} (h : a.length = r.length) : (∀ c ∈ a.zip r, c.2 = 0) ↔ ∀ v ∈ r, v = 0 := by
  constructor
  · intro hz v hv
    obtain ⟨i, hi⟩ := List.mem_iff_getElem?.1 hv
    have hlt := (List.getElem?_eq_some_iff.1 hi).1
    have := hz (a[i], v) (List.mem_iff_getElem?.2 ⟨i, by
      rw [List.getElem?_zip_eq_some]
      exact ⟨List.getElem?_eq_getElem (by omega), hi⟩⟩)
    exact this
  · intro hz c hc
    exact hz _ (List.of_mem_zip hc).2

/-- The columns of the intervals are zero iff the constraints of the intervals are. -/
theorem interval_zero_iff {S : Setup} {x iv : List ℝ} (i2 : iv.length = (S.c.o.L.numStages - 1) * S.c.o.L.size "states")
    (i3 : ∀ q, q < S.c.o.L.numStages - 1 → (iv.drop (q * S.c.o.L.size "states")).take (S.c.o.L.size "states")
          = vdiv ((List.range (S.c.o.L.size "states")).map fun k =>
              defectAt S x (q / (S.c.o.L.nspi - 1)) (q % (S.c.o.L.nspi - 1)) k)
            ((S.c.o.L.namesOf "states").map (askedScale S.scales "states"))) :
    (∀ s, s < S.c.o.L.numStages → ∀ c ∈ intervalColumns S x s, c.2 = 0) ↔ ∀ v ∈ iv, v = 0 := by
  have hN := numStages_pos S.c.o.L
  have key : ∀ q, q < S.c.o.L.numStages - 1 → ((∀ c ∈ intervalColumns S x (q + 1), c.2 = 0) ↔
      ∀ v ∈ (iv.drop (q * S.c.o.L.size "states")).take (S.c.o.L.size "states"), v = 0) := by
    intro q hq
    rw [i3 q hq, ← zip_zero_iff (a := (S.c.o.L.namesOf "states").map ("interval_con." ++ ·)) (by simp [Layout.size]), interval_zip]
    unfold intervalColumns
    simp
  have hre : reshape2 (S.c.o.L.numStages - 1) (S.c.o.L.size "states") iv
      = .ok ((List.range (S.c.o.L.numStages - 1)).map fun q => (iv.drop (q * S.c.o.L.size "states")).take (S.c.o.L.size "states")) :=
    reshape2_ok i2
  have hfl := reshape2_flatten hre
  constructor
  · intro hz v hv
    rw [← hfl] at hv
    obtain ⟨r, hr, hv⟩ := List.mem_flatten.1 hv
    obtain ⟨q, hq, rfl⟩ := List.mem_map.1 hr
    have hq := List.mem_range.1 hq
    exact (key q hq).1 (hz (q + 1) (by omega)) v hv
  · intro hz s hs
    cases s with
    | zero =>
      intro c hc
      unfold intervalColumns at hc
      obtain ⟨p, _, rfl⟩ := List.mem_map.1 hc
      simp
    | succ q =>
      refine (key q (by omega)).2 fun v hv => hz v ?_
      exact List.mem_of_mem_drop (List.mem_of_mem_take hv)

/-- The columns of the stages are zero iff the constraints of the stages are. -/
theorem stage_zero_iff (h : S.Good D) (x : List ℝ) :
    (∀ s, s < S.c.o.L.numStages → ∀ c ∈ stageColumns S x s, c.2 = 0) ↔
      ∀ v ∈ ((List.range S.c.o.L.numStages).map fun s => (if S.isCondensed = true then [] else dotRow S x s) ++ restRow S x s).flatten, v = 0 := by
  have hY : (S.c.o.L.namesOf "con_outputs").length = S.c.M.ny := h.cond.sizeY
  have hD : (S.c.o.L.namesOf "states_dot").length = S.c.M.nx := h.cond.sizeD
  have er : S.c.M.residuals.length = S.c.M.nr := rfl
  have key : ∀ s, (∀ c ∈ stageColumns S x s, c.2 = 0) ↔ ∀ v ∈ (if S.isCondensed = true then [] else dotRow S x s) ++ restRow S x s, v = 0 := by
    intro s
    rw [← stage_zip h, zip_zero_iff]
    by_cases hc : S.isCondensed = true
    · simp only [if_pos hc, List.nil_append, List.length_map, List.length_append, length_restRow h, hY, er]
    · simp only [if_neg hc, List.length_map, List.length_append, length_restRow h, length_dotRow h, hY, hD, er]
  constructor
  · intro hz v hv
    obtain ⟨r, hr, hv⟩ := List.mem_flatten.1 hv
    obtain ⟨s, hs, rfl⟩ := List.mem_map.1 hr
    exact (key s).1 (hz s (List.mem_range.1 hs)) v hv
  · intro hz s hs
    refine (key s).2 fun v hv => hz v ?_
    exact List.mem_flatten.2 ⟨_, List.mem_map.2 ⟨s, List.mem_range.2 hs, rfl⟩, hv⟩

/-- The columns of the cyclic constraints are zero iff they are. -/
theorem cyclic_zero (h : S.Good D) {b : Built} (hb : S.build = .ok b) {z : List ℝ} (hz : z.length = S.c.o.L.numDec) (hc : S.isCyclic = true)
    {c : Cons} (c1 : ("cyclic", c) ∈ b.prob.cons) :
    (∀ s, s < S.c.o.L.numStages → ∀ c ∈ cyclicColumns S (vmul z b.prob.scales) s, c.2 = 0) ↔ ∀ v ∈ c.constraints z, v = 0 := by
  obtain ⟨hp, hsig⟩ := built_facts h hb
  obtain ⟨_, _, _, k4⟩ := build_conScales h hb
  generalize hx : vmul z b.prob.scales = x
  have hxl : x.length = S.c.o.L.numDec := by rw [← hx, length_vmul, hz, hp.inv.scales.1, Nat.min_self]
  have hN := numStages_pos S.c.o.L
  obtain ⟨d, d1, d2, d3⟩ := mem_of_sig (p := b.prob) (name := "cyclic") (m := (cyclicPairs S).length)
      (f := valueOf (cyclicConstraint S.c.o.L ((cyclicPairs S).map fun p => fullName p.1 p.2)))
      (by rw [hsig]; unfold expectedSig; by_cases hd : S.isCondensed = true <;> simp [hc, hd])
  have hcd : d = c := by
    have e := (part_ok hp hz d1).1
    have hnd := hp.inv.consNodup
    exact congrArg Prod.snd (List.inj_on_of_nodup_map hnd d1 c1 rfl)
  subst hcd
  obtain ⟨c', _, _, _, y1, y2⟩ := cyclicCons_ok h hc
  have ev : d.con x = (cyclicPairs S).map fun p => readAt S.c.o.L x p.1 p.2 0 - readAt S.c.o.L x p.1 p.2 (S.c.o.L.numStages - 1) := by
    rw [d3, ← y1, y2 x hxl]
    apply List.map_congr_left
    rintro ⟨g, n⟩ hgn
    obtain ⟨hg, hn, _⟩ := mem_cyclicPairs.1 hgn
    have hgm : g ∈ S.c.o.L.groups := by rcases hg with rfl | rfl <;> exact group_mem h (by simp)
    rw [readAt_posAt h hxl hgm hn hN, readAt_posAt h hxl hgm hn (by omega)]
  have e1 : d.constraints z = d.con x := by
    unfold Cons.constraints
    rw [((hp.inv.cons _ d1).facts).2.1, hx, k4 d d1, d2, ev]
    have := vdiv_ones ((cyclicPairs S).map fun p => readAt S.c.o.L x p.1 p.2 0 - readAt S.c.o.L x p.1 p.2 (S.c.o.L.numStages - 1))
    rwa [List.length_map] at this
  rw [e1, ev]
  unfold cyclicColumns
  simp only [if_pos hc]
  constructor
  · intro hz v hv
    obtain ⟨p, hp, rfl⟩ := List.mem_map.1 hv
    have := hz (S.c.o.L.numStages - 1) (by omega) _ (List.mem_map.2 ⟨p, hp, rfl⟩)
    simpa using this
  · intro hz s hs c hc
    obtain ⟨p, hp, rfl⟩ := List.mem_map.1 hc
    by_cases hl : s = S.c.o.L.numStages - 1
    · simp only [if_pos hl]
      exact hz _ (List.mem_map.2 ⟨p, hp, rfl⟩)
    · simp only [if_neg hl]

/-- **C72 (constraint columns).** The scaled decision variables are feasible exactly when every constraint column of every row of their
table is zero. -/
theorem C72_feasible (h : S.Good D) {b : Built} (hb : S.build = .ok b) {z : List ℝ} (hz : z.length = S.c.o.L.numDec) :
    b.Feasible z ↔ ∀ s, s < S.c.o.L.numStages → ∀ c ∈ intervalColumns S (vmul z b.prob.scales) s
      ++ (stageColumns S (vmul z b.prob.scales) s ++ cyclicColumns S (vmul z b.prob.scales) s), c.2 = 0 := by
  obtain ⟨b', o, t, h1, _, hp, hsig, _, h4, h5, _⟩ := build_ok h
  rw [hb] at h1
  cases h1
  have hne : b.prob.cons ≠ [] := by
    intro e
    apply expectedSig_ne S
    rw [← hsig]
    simp [consSig, e]
  obtain ⟨v, v1, v2, v3, v4⟩ := C12_constraints_and_split hp hne z hz
  obtain ⟨iv, i1, i2, i3⟩ := splitCons_ok h hb hz rfl
  have hparts := splitCons_parts i1
  have hf : b.Feasible z ↔ ∀ c ∈ b.prob.cons, ∀ u ∈ c.2.constraints z, u = 0 := by
    have : b.Feasible z ↔ ∀ u ∈ v, u = 0 := by
      unfold Built.Feasible
      rw [h4, h5]
      constructor
      · rintro ⟨g, e, k1, k2⟩
        rw [v1] at e
        cases e
        exact (forall₂_zero_iff v _ v2).mp ⟨k1, k2⟩
      · intro hz
        exact ⟨v, v1, (forall₂_zero_iff v _ v2).mpr hz⟩
    rw [this, v3]
    constructor
    · intro hz c hc u hu
      exact hz u (List.mem_flatten.2 ⟨_, List.mem_map.2 ⟨c, hc, rfl⟩, hu⟩)
    · intro hz u hu
      obtain ⟨l, hl, hu⟩ := List.mem_flatten.1 hu
      obtain ⟨c, hc, rfl⟩ := List.mem_map.1 hl
      exact hz c hc u hu
  have hval : ∀ name c r, (name, c) ∈ b.prob.cons → part (b.prob.cons.map fun c => (c.1, c.2.constraints z)) name = .ok r →
      c.constraints z = r := by
    intro name c r hc hr
    rw [(part_ok hp hz hc).1] at hr
    cases hr
    unfold Cons.constraints
    rw [((hp.inv.cons _ hc).facts).2.1]
  have hnames : b.prob.cons.map Prod.fst = (if S.isCondensed = true then (if S.isCyclic = true then ["cyclic"] else []) ++ ["model_algebra"]
          else ["model_algebra", "continuity"] ++ if S.isCyclic = true then ["cyclic"] else []) := by
    rw [names_of_sig, hsig]
    unfold expectedSig
    by_cases hcd : S.isCondensed = true <;> by_cases hc : S.isCyclic = true <;> simp [hcd, hc]
  have hget : ∀ name, name ∈ b.prob.cons.map Prod.fst → ∃ c, (name, c) ∈ b.prob.cons := by
    intro name hn
    obtain ⟨⟨k, c⟩, hc, rfl⟩ := List.mem_map.1 hn
    exact ⟨c, hc⟩
  have hcyc : (∀ s, s < S.c.o.L.numStages → ∀ c ∈ cyclicColumns S (vmul z b.prob.scales) s, c.2 = 0) ↔
      ∀ c, ("cyclic", c) ∈ b.prob.cons → ∀ u ∈ c.constraints z, u = 0 := by
    by_cases hc : S.isCyclic = true
    · constructor
      · intro hz' c hcc
        exact (cyclic_zero h hb hz hc hcc).1 hz'
      · intro hz'
        obtain ⟨c, hcc⟩ := hget "cyclic" (by rw [hnames]; by_cases hd : S.isCondensed = true <;> simp [hd, hc])
        exact (cyclic_zero h hb hz hc hcc).2 (hz' c hcc)
    · constructor
      · intro _ c hcc
        have := List.mem_map_of_mem (f := Prod.fst) hcc
        rw [hnames] at this
        by_cases hd : S.isCondensed = true <;> simp [hd, hc] at this
      · intro _ s _ c hcc
        unfold cyclicColumns at hcc
        rw [if_neg hc] at hcc
        cases hcc
  have hsplit : (∀ s, s < S.c.o.L.numStages → ∀ c ∈ intervalColumns S (vmul z b.prob.scales) s
      ++ (stageColumns S (vmul z b.prob.scales) s ++ cyclicColumns S (vmul z b.prob.scales) s), c.2 = 0) ↔
      (∀ s, s < S.c.o.L.numStages → ∀ c ∈ intervalColumns S (vmul z b.prob.scales) s, c.2 = 0)
      ∧ (∀ s, s < S.c.o.L.numStages → ∀ c ∈ stageColumns S (vmul z b.prob.scales) s, c.2 = 0)
      ∧ (∀ s, s < S.c.o.L.numStages → ∀ c ∈ cyclicColumns S (vmul z b.prob.scales) s, c.2 = 0) := by
    constructor
    · intro hz
      refine ⟨fun s hs c hc => hz s hs c (by simp [hc]), fun s hs c hc => hz s hs c (by simp [hc]), fun s hs c hc => hz s hs c (by simp [hc])⟩
    · rintro ⟨a1, a2, a3⟩ s hs c hc
      rcases List.mem_append.1 hc with hc | hc
      · exact a1 s hs c hc
      · rcases List.mem_append.1 hc with hc | hc
        · exact a2 s hs c hc
        · exact a3 s hs c hc
  rw [hsplit, interval_zero_iff i2 i3, stage_zero_iff h, hcyc, hf]
  by_cases hcd : S.isCondensed = true
  · rw [if_pos hcd] at hparts
    obtain ⟨c, hc⟩ := hget "model_algebra" (by rw [hnames]; simp [hcd])
    have hcv := hval _ c _ hc hparts
    constructor
    · intro hz
      have := hz _ hc
      rw [hcv] at this
      exact ⟨fun v hv => this v (by simp only [List.mem_append]; exact Or.inl hv),
        fun v hv => this v (by simp only [List.mem_append]; exact Or.inr hv), fun c hc => hz _ hc⟩
    · rintro ⟨a1, a2, a3⟩ ⟨k, c'⟩ hc' u hu
      have := List.mem_map_of_mem (f := Prod.fst) hc'
      rw [hnames] at this
      have hk : k = "cyclic" ∨ k = "model_algebra" := by
        by_cases hd : S.isCyclic = true
        · simpa [hcd, hd] using this
        · exact Or.inr (by simpa [hcd, hd] using this)
      rcases hk with rfl | rfl
      · exact a3 c' hc' u hu
      · rw [hval _ c' _ hc' hparts] at hu
        rcases List.mem_append.1 hu with hu | hu
        · exact a1 u hu
        · exact a2 u hu
  · rw [if_neg hcd] at hparts
    obtain ⟨c, hc⟩ := hget "continuity" (by rw [hnames]; simp [hcd])
    obtain ⟨d, hd⟩ := hget "model_algebra" (by rw [hnames]; simp [hcd])
    constructor
    · intro hz
      have e1 := hz _ hc
      have e2 := hz _ hd
      rw [hval _ c _ hc hparts.1] at e1
      rw [hval _ d _ hd hparts.2] at e2
      exact ⟨e1, e2, fun c hc => hz _ hc⟩
    · rintro ⟨a1, a2, a3⟩ ⟨k, c'⟩ hc' u hu
      have := List.mem_map_of_mem (f := Prod.fst) hc'
      rw [hnames] at this
      have hk : k = "cyclic" ∨ k = "model_algebra" ∨ k = "continuity" := by
        by_cases hd : S.isCyclic = true
        · rcases (by simpa [hcd, hd] using this : k = "model_algebra" ∨ k = "continuity" ∨ k = "cyclic") with h | h | h
          · exact Or.inr (Or.inl h)
          · exact Or.inr (Or.inr h)
          · exact Or.inl h
        · exact Or.inr (by simpa [hcd, hd] using this)
      rcases hk with rfl | rfl | rfl
      · exact a3 c' hc' u hu
      · rw [hval _ c' _ hc' hparts.2] at hu
        exact a2 u hu
      · rw [hval _ c' _ hc' hparts.1] at hu
        exact a1 u hu

/-! ## The tables are those C71 speaks of -/

theorem isCon_prefix (n : String) : isCon ("interval_con." ++ n) = true := by
  unfold isCon
  apply decide_eq_true
  rw [String.toList_append]
  exact ⟨"interval".toList, n.toList, by simp⟩

/-- **C72 (order of the rows).** On an increasing normalized mesh, with a positive mesh scale, the table of iteration `k` is one of those
of which C71 says how they are filed: its rows are in the order of the mesh and it has a constraint column. -/
theorem C72_is_table (h : S.Good D) {b : Built} (hb : S.build = .ok b) (O : Outputs) {z : List ℝ} (hz : z.length = S.c.o.L.numDec)
    (hO : ∀ x u t, x.length = S.c.M.nx → u.length = S.c.M.nu → (O.out x u t).length = O.names.length)
    (hm : S.c.mesh.Pairwise (· < ·)) (hpos : 0 < readScale S.c.o z) (k : Nat) :
    ∃ t, createTable S b.prob O z (some k) = .ok t ∧ IsTable k t := by
  refine ⟨_, C72_table h hb O hz hO (some k), ?_, ?_, ?_⟩
  · intro r hr
    obtain ⟨s, _, rfl⟩ := List.mem_map.1 hr
    rfl
  · rw [List.pairwise_map]
    rw [List.pairwise_iff_getElem] at hm ⊢
    intro i j hi hj hij
    have hp := h.cond.stage.points
    simp only [List.length_range] at hi hj
    simp only [List.getElem_range]
    have := hm i j (by omega) (by omega) hij
    rw [List.getD_eq_getElem?_getD, List.getD_eq_getElem?_getD, List.getElem?_eq_getElem (by omega), List.getElem?_eq_getElem (by omega)]
    exact mul_lt_mul_of_pos_right this hpos
  · have hN := numStages_pos S.c.o.L
    have hx : 0 < (S.c.o.L.namesOf "states").length := h.cond.ocp.pos
    refine ⟨_, List.mem_map.2 ⟨0, List.mem_range.2 hN, rfl⟩, ("interval_con." ++ (S.c.o.L.namesOf "states")[0], 0), ?_, isCon_prefix _⟩
    have : ("interval_con." ++ (S.c.o.L.namesOf "states")[0], (0:ℝ)) ∈ intervalColumns S (vmul z b.prob.scales) 0 := by
      unfold intervalColumns
      refine List.mem_map.2 ⟨((S.c.o.L.namesOf "states")[0], 0), ?_, by simp⟩
      rw [List.mem_zipIdx_iff_getElem?]
      exact List.getElem?_eq_getElem hx
    simp only [List.mem_append]
    exact Or.inr (Or.inr (Or.inl this))

/-- **C72 (all tables of a solve).** The hypothesis of C71 on the tables holds for a built problem whenever the solver evaluates points of
the right size with a positive mesh scale. -/
theorem C72_tables (h : S.Good D) {b : Built} (hb : S.build = .ok b) (O : Outputs)
    (hO : ∀ x u t, x.length = S.c.M.nx → u.length = S.c.M.nu → (O.out x u t).length = O.names.length)
    (hm : S.c.mesh.Pairwise (· < ·)) {E : Env} (hE : ∀ z i, E.df z i = createTable S b.prob O z i) {es : List Event}
    (hes : ∀ z, .objective z ∈ es → z.length = S.c.o.L.numDec ∧ 0 < readScale S.c.o z) : Tables E es := by
  intro z hz k
  rw [hE]
  exact C72_is_table h hb O (hes z hz).1 hO hm (hes z hz).2 k

/-! ## Examples -/

/-- The outputs of the example: twice the state. -/
noncomputable def exOut : Outputs := ⟨["y"], fun x _ _ => [2 * x.getD 0 0]⟩

/-- The condensed and the lifted example have tables of seven rows at every point. -/
example (condensed : Bool) {b : Built} (hb : (exSetup condensed).build = .ok b) (z : List ℝ) (hz : z.length = 28) :
    ∃ t, createTable (exSetup condensed) b.prob exOut z (some 3) = .ok t ∧ IsTable 3 t := by
  refine C72_is_table (exSetup_good condensed) hb exOut hz (fun _ _ _ _ _ => rfl) ?_ ?_ 3
  · simp only [exSetup, linCond, exMesh]
    norm_num
  · simp only [readScale, exSetup, linCond]
    norm_num

/-- The same model with a mesh scale that is optimised and has the scale 10. -/
noncomputable def scaledCond : CondOCP :=
  { linCond with o := { linCond.o with L := { linCond.o.L with globals := ["mesh_scale"] }, fixedScale := none } }

noncomputable def scaledSetup : Setup :=
  { c := scaledCond, builtScale := none, laptime := false, isCyclic := false, nonCyclic := [], isCondensed := false, sample := []
    bounds := [], bcs := [], scales := [⟨"global", "mesh_scale", 10⟩] }

theorem scaledCond_good : scaledCond.Good where
  stage :=
    { made := ⟨by decide +kernel, by decide, by decide⟩
      fields := ⟨by decide, by decide +kernel⟩
      stages := (by decide)
      intervals := (by decide)
      states := (by decide)
      statesDot := (by decide)
      same := (by decide +kernel)
      pos := (by decide +kernel)
      lens := rfl
      mesh := (by simp [scaledCond])
      width := rfl
      points := rfl }
  model := linModel_good
  con := rfl
  numIn := rfl
  numCon := rfl
  groups := rfl
  sizeX := (by decide +kernel)
  sizeU := (by decide +kernel)
  sizeY := (by decide +kernel)

theorem scaledSetup_good : scaledSetup.Good where
  cond := scaledCond_good
  jac := ExplicitModel.unitOf_jac linModel_good linDense _
  hess := unitOf_upper linModel_good linDense linDense2
  meshFree := Or.inr (fun _ _ _ => rfl)
  built := (by simp [scaledSetup, scaledCond])
  lap := (by simp [scaledSetup])
  last := fun _ => rfl
  time := (by simp [scaledSetup, scaledCond])
  dotless := (by simp [scaledSetup])
  excluded := (by simp [scaledSetup])
  someCyclic := (by simp [scaledSetup])
  sample := (by simp [scaledSetup])
  known := (by
    intro c hc
    simp only [scaledSetup, List.mem_singleton] at hc
    subst hc
    exact Or.inr ⟨rfl, by show "mesh_scale" ∈ scaledCond.o.L.globals; decide +kernel⟩)
  nonzero := (by
    intro c hc
    simp only [scaledSetup, List.mem_singleton] at hc
    subst hc
    norm_num)
  bounds := ⟨_, _, Prod.ext rfl rfl, Prod.ext rfl rfl⟩

/-- **C72 (finding).** With a `mesh_scale` of scale 10 the logged mesh is a tenth of the mesh at which the model was evaluated. -/
theorem C72_logged_mesh_is_scaled : ∃ b, scaledSetup.build = .ok b ∧ ∀ z : List ℝ, z.length = 29 → ∀ k, ∃ t,
    createTable scaledSetup b.prob exOut z (some k) = .ok t ∧ ∀ s, s < 7 →
      (t.map Row.mesh).getD s 0 = meshAt scaledSetup (vmul z b.prob.scales) s / 10 := by
  obtain ⟨b, hb, _⟩ := C47_build scaledSetup_good
  refine ⟨b, hb, ?_⟩
  intro z hz k
  refine ⟨_, C72_table scaledSetup_good hb exOut hz (fun _ _ _ _ _ => rfl) (some k), ?_⟩
  intro s hs
  have hm := (C72_mesh scaledSetup_good hb hz s).2 rfl
  have ha : askedScale scaledSetup.scales "global" "mesh_scale" = 10 := by
    simp [askedScale, scaledSetup]
  rw [ha] at hm
  rw [← hm, List.map_map]
  have hs' : s < scaledSetup.c.o.L.numStages := hs
  rw [getD_map_range _ _ _ hs']
  rfl

end Lumos.Log
