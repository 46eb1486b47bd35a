import Verif.Map.Props
/-!
# The batched maps in the stage constraints, the cache of `cmap`, and findings (C79)
-/

namespace Lumos.Map

open Lumos Lumos.Ocp

variable {P : Type}

/-- A vector of numbers as an array. -/
def vec (l : List ℝ) : Arr := .rows (l.map .num)

/-- A matrix given by its rows. -/
def mat (l : List (List ℝ)) : Arr := .rows (l.map vec)

/-- The numbers of a vector. -/
def Arr.nums : Arr → Option (List ℝ)
  | .num _ => none
  | .rows l => l.mapM fun a => match a with
    | .num x => some x
    | .rows _ => none

/-- A method `(flat_vars, mesh, params)` of the model, such as `_apply_and_flat_implicit` and `_implicit_jac` (base.py:581-601,
brachistochrone.py:93-123): it sets the parameters first, which raises AttributeError for anything but a parameter tree
(composition.py:206-213), then computes. Any other ill-formed argument is taken to raise ValueError. -/
def conFn (f : P → List ℝ → ℝ → List ℝ) : List (Arg P) → Py Out
  | [.arr v, .arr (.num m), .obj p] => match v.nums with
    | some l => .ok (.arr (vec (f p l m)))
    | none => .error .valueError
  | [_, _, .obj _] => .error .valueError
  | [_, _, _] => .error .attributeError
  | _ => .error .typeError

/-- `_implicit_hess(flat_vars, mesh, params, mult)` (base.py:609, brachistochrone.py:163-202), in the order of its signature. -/
def hessFn (h : P → List ℝ → ℝ → List ℝ → List ℝ) : List (Arg P) → Py Out
  | [.arr v, .arr (.num m), .obj p, .arr w] => match v.nums, w.nums with
    | some l, some lam => .ok (.arr (vec (h p l m lam)))
    | _, _ => .error .valueError
  | [_, _, .obj _, _] => .error .valueError
  | [_, _, _, _] => .error .attributeError
  | _ => .error .typeError

/-- `forward(states, inputs, mesh)` of a model that looks its variables up by name: a string index into an array raises IndexError. -/
def forwardFn (f : P → P → ℝ → Out) : List (Arg P) → Py Out
  | [.obj x, .obj u, .arr (.num m)] => .ok (f x u m)
  | [_, _, _] => .error .indexError
  | _ => .error .typeError

/-- `in_axes` of the mapped constraints and Jacobian (nlp.py:192-193). -/
def conAxes : Axes := .each [some 0, some 0, none]

/-- `in_axes` of the mapped Hessian (nlp.py:194). -/
def hessAxes : Axes := .each [some 0, some 0, some 0, none]

theorem nums_vec (l : List ℝ) : (vec l).nums = some l := by
  induction l with
  | nil => rfl
  | cons x l ih =>
    simp only [Arr.nums, vec, List.map_cons, List.mapM_cons] at ih ⊢
    rw [ih]
    rfl

theorem shape_vec (l : List ℝ) : (vec l).shape = [l.length] := by
  cases l with
  | nil => rfl
  | cons x l => simp [vec, Arr.shape]

theorem isBatch_head (l : List Arr) (rest : List (Arg P)) : IsBatch (.arr (.rows l) :: rest) l.length :=
  ⟨0, l, rfl, rfl, fun j hj => absurd hj (Nat.not_lt_zero j)⟩

theorem isBatch_mat (l : List (List ℝ)) (rest : List (Arg P)) : IsBatch (.arr (mat l) :: rest) l.length := by
  have := isBatch_head (l.map vec) rest
  rwa [List.length_map] at this

theorem sameShape_vec {l : List (List ℝ)} {k : Nat} (h : ∀ v ∈ l, v.length = k) : SameShape (l.map vec) := by
  intro a ha b hb
  obtain ⟨v, hv, rfl⟩ := List.mem_map.mp ha
  obtain ⟨w, hw, rfl⟩ := List.mem_map.mp hb
  rw [shape_vec, shape_vec, h v hv, h w hw]

theorem con_row (rows : List (List ℝ)) (mesh : List ℝ) (p : P) (s : Nat) (v : List ℝ) (m : ℝ) (hv : rows[s]? = some v) (hm : mesh[s]? = some m) :
    IsRow conAxes [.arr (mat rows), .arr (vec mesh), .obj p] s [.arr (vec v), .arr (.num m), .obj p] := by
  refine ⟨rfl, fun i x hx => ?_⟩
  match i, hx with
  | 0, hx =>
    cases hx
    exact ⟨fun h => absurd ⟨0, rfl⟩ h, fun _ => ⟨_, vec v, rfl, by rw [List.getElem?_map, hv]; rfl, rfl⟩⟩
  | 1, hx =>
    cases hx
    exact ⟨fun h => absurd ⟨0, rfl⟩ h, fun _ => ⟨_, .num m, rfl, by rw [List.getElem?_map, hm]; rfl, rfl⟩⟩
  | 2, hx =>
    cases hx
    exact ⟨fun _ => rfl, fun h => by obtain ⟨x, h⟩ := h; cases h⟩

/-- **C79.** The stage constraints and their Jacobian of a model with hand-written derivatives: with as many mesh points as windows the
mapped method returns the values the stage model of C31 uses, row by row. -/
theorem C79_stage_rows (f : P → List ℝ → ℝ → List ℝ) (p : P) (rows : List (List ℝ)) (mesh : List ℝ) (k : Nat) (hne : rows ≠ [])
    (hk : ∀ v m, (f p v m).length = k) (hl : rows.length = mesh.length) :
    ∃ out, OCP.mapRows (f p) rows mesh = .ok out ∧
      lmap (conFn f) conAxes [.arr (mat rows), .arr (vec mesh), .obj p] = .ok (.arr (mat out)) := by
  refine ⟨List.zipWith (f p) rows mesh, if_pos hl, (C79_lmap_array _ _ _ _).mpr ⟨?_, _, ?_, rfl, ?_, ?_, ?_⟩⟩
  · intro l h
    cases h
    rfl
  · cases rows with
    | nil => exact absurd rfl hne
    | cons a rows =>
      cases mesh with
      | nil => simp at hl
      | cons b mesh => simp
  · refine sameShape_vec (k := k) fun v hv => ?_
    obtain ⟨i, hi, rfl⟩ := List.getElem_of_mem hv
    rw [List.getElem_zipWith]
    exact hk _ _
  · have := isBatch_mat (P := P) rows [.arr (vec mesh), .obj p]
    simpa [hl] using this
  · intro s b hb
    rw [List.getElem?_map, Option.map_eq_some_iff] at hb
    obtain ⟨v, hv, rfl⟩ := hb
    rw [List.getElem?_zipWith_eq_some] at hv
    obtain ⟨r, m, hr, hm, rfl⟩ := hv
    refine ⟨_, con_row rows mesh p s r m hr hm, ?_⟩
    simp only [conFn, nums_vec]

/-- **C79** (finding). The number of mesh points is not compared with the number of windows: surplus points are dropped, and only a shortage
raises IndexError. -/
theorem C79_mesh_not_compared (f : P → List ℝ → ℝ → List ℝ) (p : P) (rows : List (List ℝ)) (mesh : List ℝ) (k : Nat) (hne : rows ≠ [])
    (hk : ∀ v m, (f p v m).length = k) :
    (rows.length ≤ mesh.length → lmap (conFn f) conAxes [.arr (mat rows), .arr (vec mesh), .obj p] =
      .ok (.arr (mat (List.zipWith (f p) rows mesh)))) ∧
    (mesh.length < rows.length → lmap (conFn f) conAxes [.arr (mat rows), .arr (vec mesh), .obj p] = .error .indexError) := by
  constructor
  · intro hl
    refine (C79_lmap_array _ _ _ _).mpr ⟨?_, _, ?_, rfl, ?_, ?_, ?_⟩
    · intro l h
      cases h
      rfl
    · cases rows with
      | nil => exact absurd rfl hne
      | cons a rows =>
        cases mesh with
        | nil => simp at hl
        | cons b mesh => simp
    · refine sameShape_vec (k := k) fun v hv => ?_
      obtain ⟨i, hi, rfl⟩ := List.getElem_of_mem hv
      rw [List.getElem_zipWith]
      exact hk _ _
    · have := isBatch_mat (P := P) rows [.arr (vec mesh), .obj p]
      simpa [hl] using this
    · intro s b hb
      rw [List.getElem?_map, Option.map_eq_some_iff] at hb
      obtain ⟨v, hv, rfl⟩ := hb
      rw [List.getElem?_zipWith_eq_some] at hv
      obtain ⟨r, m, hr, hm, rfl⟩ := hv
      refine ⟨_, con_row rows mesh p s r m hr hm, ?_⟩
      simp only [conFn, nums_vec]
  · intro hl
    simp only [lmap, conAxes, fullAxes, List.length_cons, List.length_nil, if_true, bind, Except.bind, batchSize, mat, List.length_map]
    rw [mapM_error (k := mesh.length) (a := mesh.length) (e := .indexError) (List.getElem?_range hl)]
    · have h2 : rows[mesh.length]? = some rows[mesh.length] := List.getElem?_eq_getElem hl
      simp [sampleArg, Arg.item, vec, bind, Except.bind, h2]
    · intro i hi b hb
      rw [List.getElem?_range (by omega)] at hb
      cases hb
      have h1 : rows[i]? = some rows[i] := List.getElem?_eq_getElem (by omega)
      have h2 : mesh[i]? = some mesh[i] := List.getElem?_eq_getElem hi
      have := (sample_iff (full := [some 0, some 0, none]) rfl).mpr (con_row rows mesh p i rows[i] mesh[i] h1 h2)
      simp only [mat] at this
      refine ⟨.arr (vec (f p rows[i] mesh[i])), ?_⟩
      rw [this]
      simp only [conFn, nums_vec]

/-- **C79** (finding). The problem evaluates the Hessian of the stage constraints as `mapped_hessian(vars, multipliers, mesh, params)`, but
the method of a model with hand-written derivatives takes `(vars, mesh, params, multipliers)`: the mesh point arrives as the parameters, so
every evaluation raises AttributeError, while the same method called in its own order returns the values of all stages. -/
theorem C79_custom_hessian (h : P → List ℝ → ℝ → List ℝ → List ℝ) (p : P) (rows lags : List (List ℝ)) (mesh : List ℝ) (k : Nat)
    (hne : rows ≠ []) (hl : rows.length = lags.length) (hm : rows.length = mesh.length) (hk : ∀ v m w, (h p v m w).length = k) :
    lmap (hessFn h) hessAxes [.arr (mat rows), .arr (mat lags), .arr (vec mesh), .obj p] = .error .attributeError ∧
    lmap (hessFn h) (.each [some 0, some 0, none, some 0]) [.arr (mat rows), .arr (vec mesh), .obj p, .arr (mat lags)] =
      .ok (.arr (mat (List.zipWith (fun (q : List ℝ × List ℝ) m => h p q.1 m q.2) (rows.zip lags) mesh))) := by
  constructor
  · have h0 : 0 < rows.length := List.length_pos_iff.mpr hne
    have hb : IsBatch [.arr (mat rows), .arr (mat lags), .arr (vec mesh), (.obj p : Arg P)] rows.length := isBatch_mat _ _
    refine (C79_lmap_raises (hessFn h) hessAxes _ rows.length (by intro l hl; cases hl; rfl) hb).1 0
      [.arr (vec rows[0]), .arr (vec lags[0]), .arr (.num mesh[0]), .obj p] _ h0 ⟨rfl, fun i x hx => ?_⟩ rfl
      fun t ht => absurd ht (Nat.not_lt_zero t)
    match i, hx with
    | 0, hx =>
      cases hx
      exact ⟨fun h => absurd ⟨0, rfl⟩ h, fun _ => ⟨_, _, rfl, by rw [List.getElem?_map, List.getElem?_eq_getElem h0]; rfl, rfl⟩⟩
    | 1, hx =>
      cases hx
      exact ⟨fun h => absurd ⟨0, rfl⟩ h,
        fun _ => ⟨_, _, rfl, by rw [List.getElem?_map, List.getElem?_eq_getElem (hl ▸ h0)]; rfl, rfl⟩⟩
    | 2, hx =>
      cases hx
      exact ⟨fun h => absurd ⟨0, rfl⟩ h,
        fun _ => ⟨_, _, rfl, by rw [List.getElem?_map, List.getElem?_eq_getElem (hm ▸ h0)]; rfl, rfl⟩⟩
    | 3, hx =>
      cases hx
      exact ⟨fun _ => rfl, fun h => by obtain ⟨x, h⟩ := h; cases h⟩
  · refine (C79_lmap_array _ _ _ _).mpr ⟨?_, _, ?_, rfl, ?_, ?_, ?_⟩
    · intro l h
      cases h
      rfl
    · intro hc
      have := congrArg List.length hc
      simp [← hl, ← hm] at this
      exact hne this
    · refine sameShape_vec (k := k) fun v hv => ?_
      obtain ⟨i, hi, rfl⟩ := List.getElem_of_mem hv
      rw [List.getElem_zipWith]
      exact hk _ _ _
    · have := isBatch_mat (P := P) rows [.arr (vec mesh), .obj p, .arr (mat lags)]
      simpa [← hl, ← hm] using this
    · intro s b hb
      rw [List.getElem?_map, Option.map_eq_some_iff] at hb
      obtain ⟨v, hv, rfl⟩ := hb
      rw [List.getElem?_zipWith_eq_some] at hv
      obtain ⟨⟨r, w⟩, m, hr, hm, rfl⟩ := hv
      obtain ⟨hr, hw⟩ := List.getElem?_zip_eq_some.mp hr
      refine ⟨[.arr (vec r), .arr (.num m), .obj p, .arr (vec w)], ⟨rfl, fun i x hx => ?_⟩, ?_⟩
      · match i, hx with
        | 0, hx =>
          cases hx
          exact ⟨fun h => absurd ⟨0, rfl⟩ h, fun _ => ⟨_, _, rfl, by rw [List.getElem?_map, hr]; rfl, rfl⟩⟩
        | 1, hx =>
          cases hx
          exact ⟨fun h => absurd ⟨0, rfl⟩ h, fun _ => ⟨_, _, rfl, by rw [List.getElem?_map, hm]; rfl, rfl⟩⟩
        | 2, hx =>
          cases hx
          exact ⟨fun _ => rfl, fun h => by obtain ⟨x, h⟩ := h; cases h⟩
        | 3, hx =>
          cases hx
          exact ⟨fun h => absurd ⟨0, rfl⟩ h, fun _ => ⟨_, _, rfl, by rw [List.getElem?_map, hw]; rfl, rfl⟩⟩
      · simp only [hessFn, nums_vec]

/-- **C79** (finding). The batched forward evaluation of a model with hand-written derivatives (base.py:771-774) passes rows of arrays to a
method that looks its variables up by name: it raises IndexError for every non-empty batch. -/
theorem C79_custom_forward (f : P → P → ℝ → Out) (X U : List (List ℝ)) (mesh : List ℝ) (hne : X ≠ []) (hu : X.length = U.length)
    (hm : X.length = mesh.length) :
    lmap (forwardFn f) (.one (some 0)) [.arr (mat X), .arr (mat U), .arr (vec mesh)] = .error .indexError := by
  have h0 : 0 < X.length := List.length_pos_iff.mpr hne
  have hb : IsBatch [.arr (mat X), .arr (mat U), (.arr (vec mesh) : Arg P)] X.length := isBatch_mat _ _
  refine (C79_lmap_raises (forwardFn f) (.one (some 0)) _ X.length (fun _ h => nomatch h) hb).1 0
    [.arr (vec X[0]), .arr (vec U[0]), .arr (.num mesh[0])] _ h0 ⟨rfl, fun i x hx => ?_⟩ rfl fun t ht => absurd ht (Nat.not_lt_zero t)
  match i, hx with
  | 0, hx =>
    cases hx
    exact ⟨fun h => absurd (by simp [Axes.Mapped]) h, fun _ => ⟨_, _, rfl, by rw [List.getElem?_map, List.getElem?_eq_getElem h0]; rfl, rfl⟩⟩
  | 1, hx =>
    cases hx
    exact ⟨fun h => absurd (by simp [Axes.Mapped]) h,
      fun _ => ⟨_, _, rfl, by rw [List.getElem?_map, List.getElem?_eq_getElem (hu ▸ h0)]; rfl, rfl⟩⟩
  | 2, hx =>
    cases hx
    exact ⟨fun h => absurd (by simp [Axes.Mapped]) h,
      fun _ => ⟨_, _, rfl, by rw [List.getElem?_map, List.getElem?_eq_getElem (hm ▸ h0)]; rfl, rfl⟩⟩

theorem zip_same (args : List (Arg P)) (x y : Int) (s n : Nat) :
    (args.zip (List.replicate n (some x))).mapM (sampleArg s) = (args.zip (List.replicate n (some y))).mapM (sampleArg s) := by
  induction args generalizing n with
  | nil => rfl
  | cons a args ih =>
    cases n with
    | zero => rfl
    | succ n =>
      simp only [List.replicate_succ, List.zip_cons_cons, List.mapM_cons, ih n]
      rfl

/-- **C79** (finding). The axis itself is ignored: `in_axes=1` maps over the rows as `in_axes=0` does. -/
theorem C79_axis_ignored (fn : List (Arg P) → Py Out) (x y : Int) (args : List (Arg P)) :
    lmap fn (.one (some x)) args = lmap fn (.one (some y)) args := by
  unfold lmap
  simp only [fullAxes, bind, Except.bind]
  simp only [zip_same args x y]

/-- **C79** (finding). The batch size is read off the first argument even if that argument is not to be mapped: with an unmapped first
argument of one row, all samples but the first are dropped without an error. -/
theorem C79_batch_of_unmapped (x : ℝ) (a : ℝ) (ys : List ℝ) :
    lmap (P := P) (fun row => match row with | [.arr (.rows [.num a]), .arr (.num b)] => .ok (.arr (.num (a + b))) | _ => .error .typeError)
      (.each [none, some 0]) [.arr (vec [x]), .arr (vec (a :: ys))] = .ok (.arr (vec [x + a])) := rfl

/-! ## The cache of `cmap` -/

/-- The invariant of the cache. -/
def Cache.Good {A B : Type} (fn : CasFn A B) (c : Cache) : Prop := ∀ n, c.batchSize = some n → fn.map n = .ok () → c.rawMapped = some n

theorem cmapCall_good {A B : Type} {fn : CasFn A B} {c : Cache} (hc : c.Good fn) (b : Nat) (a : A) : (cmapCall fn c b a).2.Good fn := by
  unfold cmapCall
  by_cases hb : some b ≠ c.batchSize
  · rw [if_pos hb]
    cases hm : fn.map b with
    | ok u =>
      intro n hn hok
      cases hn
      rfl
    | error e =>
      intro n hn hok
      cases hn
      rw [hm] at hok
      cases hok
  · rw [if_neg hb]
    cases hr : c.rawMapped with
    | some m => exact hc
    | none => exact hc

theorem cmapCalls_good {A B : Type} {fn : CasFn A B} (l : List (Nat × A)) : ∀ {c : Cache}, c.Good fn → (cmapCalls fn c l).Good fn := by
  induction l with
  | nil => exact fun h => h
  | cons q l ih => exact fun h => ih (cmapCall_good h q.1 q.2)

theorem empty_good {A B : Type} (fn : CasFn A B) : Cache.Good fn {} := fun _ hn => nomatch hn

/-- **C79.** The mapped casadi function remembers the last batch size only: after any history of calls, whatever their batch sizes and
whatever they raised, a call whose batch size can be mapped gives what a function made for that batch size gives. -/
theorem C79_cmap_cache {A B : Type} (fn : CasFn A B) (history : List (Nat × A)) (batch : Nat) (args : A) (h : fn.map batch = .ok ()) :
    (cmapCall fn (cmapCalls fn {} history) batch args).1 = fn.run batch args := by
  have hi := cmapCalls_good history (empty_good fn)
  unfold cmapCall
  split
  · rw [h]
  · rename_i hc
    rw [hi batch (not_not.mp hc).symm h]

/-- **C79** (finding). The batch size is recorded before the mapped function is made. When making it fails (an empty batch), the error is
raised once; the next call with the same size runs the function made for an earlier batch size. -/
theorem C79_cmap_stale {A B : Type} (fn : CasFn A B) (history : List (Nat × A)) (n batch : Nat) (a a1 a2 : A) (e : PyErr) (hn : n ≠ batch)
    (h : fn.map n = .ok ()) (he : fn.map batch = .error e) :
    (cmapCall fn (cmapCalls fn {} (history ++ [(n, a)])) batch a1).1 = .error e ∧
      (cmapCall fn (cmapCalls fn {} (history ++ [(n, a), (batch, a1)])) batch a2).1 = fn.run n a2 := by
  have app : ∀ (l m : List (Nat × A)) (c : Cache), cmapCalls fn c (l ++ m) = cmapCalls fn (cmapCalls fn c l) m := by
    intro l
    induction l with
    | nil => exact fun m c => rfl
    | cons q l ih => exact fun m c => ih m _
  have one : cmapCalls fn {} (history ++ [(n, a)]) = ⟨some n, some n⟩ := by
    rw [app]
    have hi := cmapCalls_good history (empty_good fn)
    show (cmapCall fn (cmapCalls fn {} history) n a).2 = _
    unfold cmapCall
    split
    · rw [h]
    · rename_i hc
      have hb := (not_not.mp hc).symm
      have hr := hi n hb h
      rw [hr]
      show cmapCalls fn {} history = _
      cases hcc : cmapCalls fn {} history
      rw [hcc] at hb hr
      cases hb
      cases hr
      rfl
  have hne : some batch ≠ some n := fun hc => hn (Option.some.inj hc).symm
  constructor
  · rw [one]
    unfold cmapCall
    rw [if_pos hne, he]
  · have : history ++ [(n, a), (batch, a1)] = (history ++ [(n, a)]) ++ [(batch, a1)] := by simp
    rw [this, app, one]
    show (cmapCall fn (cmapCall fn ⟨some n, some n⟩ batch a1).2 batch a2).1 = _
    have e1 : (cmapCall fn ⟨some n, some n⟩ batch a1).2 = ⟨some batch, some n⟩ := by
      unfold cmapCall
      rw [if_pos hne, he]
    rw [e1]
    unfold cmapCall
    rw [if_neg (by simp)]

/-- **C79** (an empty batch). A sparse output cannot be cut into no rows: ZeroDivisionError. -/
theorem C79_sparse_empty (data : List ℝ) : sparseRows 0 data = .error .zeroDivisionError := rfl

/-- **C79.** A mapped sparse output, its values one sample after the other, is cut into the samples' values: row `s` holds the values of
sample `s`, whatever the number of samples and of values. -/
theorem C79_sparse_rows (samples : List (List ℝ)) (k : Nat) (hne : samples ≠ []) (hk : ∀ v ∈ samples, v.length = k) :
    sparseRows samples.length samples.flatten = .ok samples := by
  have hlen : ∀ l : List (List ℝ), (∀ v ∈ l, v.length = k) → l.flatten.length = l.length * k := by
    intro l
    induction l with
    | nil => simp
    | cons v l ih =>
      intro h
      rw [List.flatten_cons, List.length_append, h v List.mem_cons_self, ih fun w hw => h w (List.mem_cons_of_mem _ hw), List.length_cons]
      ring
  have h0 : 0 < samples.length := List.length_pos_iff.mpr hne
  have hd : samples.flatten.length / samples.length = k := by
    rw [hlen samples hk, Nat.mul_div_cancel_left _ h0]
  have hcut : ∀ (l : List (List ℝ)), (∀ v ∈ l, v.length = k) → ∀ s v, l[s]? = some v → (l.flatten.drop (s * k)).take k = v := by
    intro l
    induction l with
    | nil => intro _ s v h; simp at h
    | cons w l ih =>
      intro h s v hv
      have hw := h w List.mem_cons_self
      cases s with
      | zero =>
        cases hv
        rw [List.flatten_cons, Nat.zero_mul, List.drop_zero, List.take_append_of_le_length (le_of_eq hw.symm), ← hw, List.take_length]
      | succ s =>
        rw [List.flatten_cons, show (s + 1) * k = w.length + s * k by rw [hw]; ring, List.drop_append,
          List.drop_eq_nil_of_le (by omega), List.nil_append, Nat.add_sub_cancel_left]
        exact ih (fun v hv => h v (List.mem_cons_of_mem _ hv)) s v (by simpa using hv)
  unfold sparseRows
  rw [if_neg (by omega)]
  simp only [hd]
  rw [if_pos (hlen samples hk).symm]
  congr 1
  refine List.ext_getElem? fun i => ?_
  by_cases hi : i < samples.length
  · rw [List.getElem?_map, List.getElem?_range hi, Option.map_some, List.getElem?_eq_getElem hi,
      hcut samples hk i _ (List.getElem?_eq_getElem hi)]
  · rw [List.getElem?_eq_none (by simpa using hi), List.getElem?_eq_none (by simpa using hi)]

/-- **C79** (finding). A mapped dense output has one row for each sample only if the function returns vectors; the matrices of `c` columns
give `c` rows for each sample. -/
theorem C79_dense_rows (outs : List (List (List ℝ))) :
    (∀ vs : List (List ℝ), outs = vs.map (fun v => [v]) → denseRows outs = vs) ∧
    (∀ c, (∀ o ∈ outs, o.length = c) → (denseRows outs).length = outs.length * c) := by
  constructor
  · rintro vs rfl
    induction vs with
    | nil => rfl
    | cons v vs ih => simpa [denseRows] using ih
  · intro c hc
    unfold denseRows
    induction outs with
    | nil => simp
    | cons o outs ih =>
      rw [List.flatten_cons, List.length_append, hc o List.mem_cons_self, ih fun w hw => hc w (List.mem_cons_of_mem _ hw), List.length_cons]
      ring

/-! ## The hypotheses are met -/

/-- Two stages of a unit problem with parameter `g`: two rows. -/
example : lmap (conFn fun (g : ℝ) v m => [g * v.getD 0 0 + m, v.getD 1 0]) conAxes [.arr (mat [[1, 2], [3, 4]]), .arr (vec [5, 6]), .obj 10] =
    .ok (.arr (mat [[10 * 1 + 5, 2], [10 * 3 + 6, 4]])) := by
  obtain ⟨out, h1, h2⟩ := C79_stage_rows (fun (g : ℝ) v m => [g * v.getD 0 0 + m, v.getD 1 0]) 10 [[1, 2], [3, 4]] [5, 6] 2 (by simp)
    (fun _ _ => rfl) rfl
  cases h1
  exact h2

example : lmap (P := Unit) (fun row => match row with | [.arr (.num b)] => .ok (.tup "R" [.num (b + 1), .num (b + 2)]) | _ => .error .typeError)
    (.one (some 0)) [.arr (vec [7, 8])] = .ok (.tup "R" [vec [7 + 1, 8 + 1], vec [7 + 2, 8 + 2]]) := by
  refine (C79_lmap_tuple _ _ _ _ _).mpr ⟨(fun _ h => nomatch h), [.tup "R" [.num (7 + 1), .num (7 + 2)], .tup "R" [.num (8 + 1), .num (8 + 2)]],
    ⟨⟨0, _, rfl, rfl, fun j hj => absurd hj (Nat.not_lt_zero j)⟩, ?_⟩, ⟨_, rfl, rfl⟩, ?_⟩
  · intro s o ho
    match s, ho with
    | 0, ho =>
      cases ho
      refine ⟨[.arr (.num 7)], ⟨rfl, fun i x hx => ?_⟩, rfl⟩
      match i, hx with
      | 0, hx => cases hx; exact ⟨fun h => absurd (by simp [Axes.Mapped]) h, fun _ => ⟨_, _, rfl, rfl, rfl⟩⟩
    | 1, ho =>
      cases ho
      refine ⟨[.arr (.num 8)], ⟨rfl, fun i x hx => ?_⟩, rfl⟩
      match i, hx with
      | 0, hx => cases hx; exact ⟨fun h => absurd (by simp [Axes.Mapped]) h, fun _ => ⟨_, _, rfl, rfl, rfl⟩⟩
  · intro i p hp
    match i, hp with
    | 0, hp =>
      cases hp
      refine ⟨_, rfl, rfl, by simp [SameShape, Arr.shape], fun s o ho => ?_⟩
      match s, ho with
      | 0, ho => cases ho; exact ⟨_, rfl, .inl ⟨_, _, rfl, rfl⟩⟩
      | 1, ho => cases ho; exact ⟨_, rfl, .inl ⟨_, _, rfl, rfl⟩⟩
    | 1, hp =>
      cases hp
      refine ⟨_, rfl, rfl, by simp [SameShape, Arr.shape], fun s o ho => ?_⟩
      match s, ho with
      | 0, ho => cases ho; exact ⟨_, rfl, .inl ⟨_, _, rfl, rfl⟩⟩
      | 1, ho => cases ho; exact ⟨_, rfl, .inl ⟨_, _, rfl, rfl⟩⟩

end Lumos.Map
