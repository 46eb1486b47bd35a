import Verif.Cache.Model
/-!
# The library cache of the casadi backend: which runs load the code of their own model (C80)
-/

namespace Lumos.Cache

variable {Text H : Type} [DecidableEq H]

/-! ## Specification -/

/-- Between emptying `nlpfunctions.c` and the end of gcc. -/
def Phase.Critical : Phase Text H → Prop
  | .truncated | .generated | .hashed _ | .missing _ | .compiling _ _ => True
  | _ => False

/-- gcc is writing the library. -/
def Phase.Compiling : Phase Text H → Prop
  | .compiling _ _ => True
  | _ => False

/-- The histories in which no process starts to generate code while another is between the start of its generation and the end of its
compilation, and no process is stopped while gcc writes its library. Anything else may interleave, and processes may be stopped. -/
def Exclusive (w : World Text H) (code : Nat → Text) (s : Sys Text H) : List Event → Prop
  | [] => True
  | .step i :: l => (s.phase i = .start → ∀ j, ¬ (s.phase j).Critical) ∧ Exclusive w code (next w code s (.step i)) l
  | .stop i :: l => ¬ (s.phase i).Compiling ∧ Exclusive w code (next w code s (.stop i)) l

/-- All libraries of the directory are complete, named after the text they were compiled from, and these texts are in `S`. -/
def Clean (w : World Text H) (S : Set Text) (d : Dir Text H) : Prop :=
  ∀ h f, d.libs h = some f → ∃ t ∈ S, f = .full t ∧ w.md5 t = h

/-- A run of one process alone, for `k` steps. -/
def solo (w : World Text H) (c : Text) (d : Dir Text H) : Nat → Dir Text H × Phase Text H
  | 0 => (d, .start)
  | k + 1 => step w c (solo w c d k).1 (solo w c d k).2

/-- Runs one after the other, each with its code and the number of steps after which it was stopped (or had finished). -/
def soloRuns (w : World Text H) (d : Dir Text H) : List (Text × Nat) → Dir Text H
  | [] => d
  | r :: l => soloRuns w (solo w r.1 d r.2).1 l

/-! ## Exclusive histories -/

/-- What is known about a process in an exclusive history. -/
def Known (w : World Text H) (c : Text) (d : Dir Text H) : Phase Text H → Prop
  | .start => True
  | .truncated => True
  | .generated => d.cfile = c
  | .hashed h => d.cfile = c ∧ h = w.md5 c
  | .missing h => d.cfile = c ∧ h = w.md5 c ∧ d.libs h = none
  | .compiling h t => t = c ∧ h = w.md5 c ∧ d.libs h = some .part
  | .loading h => h = w.md5 c ∧ d.libs h = some (.full c)
  | .loaded t => t = c
  | .failed => False
  | .stopped => True

structure Inv (w : World Text H) (code : Nat → Text) (S : Set Text) (s : Sys Text H) : Prop where
  known : ∀ i, Known w (code i) s.dir (s.phase i)
  one : ∀ i j, (s.phase i).Critical → (s.phase j).Critical → i = j
  libs : ∀ h f, s.dir.libs h = some f →
    (∃ t ∈ S, f = .full t ∧ w.md5 t = h) ∨ (f = .part ∧ ∃ i, s.phase i = .compiling h (code i))

omit [DecidableEq H] in
theorem Known.mono {w : World Text H} {c : Text} {d d' : Dir Text H} {p : Phase Text H} (h : Known w c d p) (hc : ¬ p.Critical)
    (hl : ∀ h t, d.libs h = some (.full t) → d'.libs h = some (.full t)) : Known w c d' p := by
  cases p <;> try exact h
  case loading => exact ⟨h.1, hl _ _ h.2⟩
  all_goals exact absurd trivial hc

theorem inv_next {w : World Text H} {code : Nat → Text} {S : Set Text} (hS : ∀ i, code i ∈ S) (hinj : Set.InjOn w.md5 S)
    (hcomp : ∀ i, w.compiles (code i) = true) (hfun : ∀ i, w.hasFunctions (code i) = true) {s : Sys Text H} (hs : Inv w code S s)
    (i : Nat) (he : s.phase i = .start → ∀ j, ¬ (s.phase j).Critical) : Inv w code S (next w code s (.step i)) := by
  have hk := hs.known i
  -- the other processes are not critical if this one is, or if it starts
  have other : ((s.phase i).Critical ∨ s.phase i = .start) → ∀ j, j ≠ i → ¬ (s.phase j).Critical := by
    rintro (h | h) j hj hc
    · exact hj (hs.one j i hc h)
    · exact he h j hc
  have build : ∀ (d' : Dir Text H) (p' : Phase Text H), step w (code i) s.dir (s.phase i) = (d', p') →
      Known w (code i) d' p' →
      ((s.phase i).Critical ∨ s.phase i = .start ∨ (d' = s.dir ∧ ¬ p'.Critical)) →
      (∀ h t, s.dir.libs h = some (.full t) → d'.libs h = some (.full t)) →
      (∀ h f, d'.libs h = some f → (∃ t ∈ S, f = .full t ∧ w.md5 t = h) ∨
        (f = .part ∧ ∃ j, Function.update s.phase i p' j = .compiling h (code j))) →
      Inv w code S (next w code s (.step i)) := by
    intro d' p' hst hkn hcr hmono hlib
    have hn : next w code s (.step i) = ⟨d', Function.update s.phase i p'⟩ := by
      simp only [next, hst]
    rw [hn]
    refine ⟨fun j => ?_, fun j k hj hk' => ?_, hlib⟩
    · by_cases hj : j = i
      · subst hj
        simpa using hkn
      · simp only [Function.update_of_ne hj]
        rcases hcr with h | h | ⟨rfl, -⟩
        · exact (hs.known j).mono (other (.inl h) j hj) hmono
        · exact (hs.known j).mono (other (.inr h) j hj) hmono
        · exact hs.known j
    · simp only at hj hk'
      rcases hcr with h | h | ⟨-, h⟩
      · have e : ∀ m, (Function.update s.phase i p' m).Critical → m = i := by
          intro m hm
          by_contra hne
          rw [Function.update_of_ne hne] at hm
          exact other (.inl h) m hne hm
        rw [e j hj, e k hk']
      · have e : ∀ m, (Function.update s.phase i p' m).Critical → m = i := by
          intro m hm
          by_contra hne
          rw [Function.update_of_ne hne] at hm
          exact other (.inr h) m hne hm
        rw [e j hj, e k hk']
      · have e : ∀ m, (Function.update s.phase i p' m).Critical → m ≠ i ∧ (s.phase m).Critical := by
          intro m hm
          by_cases hne : m = i
          · subst hne
            simp only [Function.update_self] at hm
            exact absurd hm h
          · rw [Function.update_of_ne hne] at hm
            exact ⟨hne, hm⟩
        exact hs.one j k (e j hj).2 (e k hk').2
  -- a compiling process stays visible if another makes the step or the step keeps the phase
  have keep : ∀ p' : Phase Text H, (∀ h t, s.phase i ≠ .compiling h t) → ∀ h f, s.dir.libs h = some f →
      (∃ t ∈ S, f = .full t ∧ w.md5 t = h) ∨ (f = .part ∧ ∃ j, Function.update s.phase i p' j = .compiling h (code j)) := by
    intro p' hne h f hf
    rcases hs.libs h f hf with h1 | ⟨h1, j, hj⟩
    · exact .inl h1
    · refine .inr ⟨h1, j, ?_⟩
      rw [Function.update_of_ne]
      · exact hj
      · rintro rfl
        exact hne _ _ hj
  cases hp : s.phase i with
  | start =>
    exact build { s.dir with cfile := w.empty } .truncated (by rw [hp]; rfl) trivial (.inr (.inl hp)) (fun _ _ h => h) (keep _ (by simp [hp]))
  | truncated =>
    exact build { s.dir with cfile := code i } .generated (by rw [hp]; rfl) rfl (.inl (by rw [hp]; trivial)) (fun _ _ h => h) (keep _ (by simp [hp]))
  | generated =>
    rw [hp] at hk
    exact build s.dir (.hashed (w.md5 s.dir.cfile)) (by rw [hp]; rfl) ⟨hk, congrArg w.md5 hk⟩ (.inl (by rw [hp]; trivial)) (fun _ _ h => h) (keep _ (by simp [hp]))
  | hashed h =>
    rw [hp] at hk
    obtain ⟨hc, rfl⟩ := hk
    cases hl : s.dir.libs (w.md5 (code i)) with
    | none =>
      refine build s.dir (.missing (w.md5 (code i))) (by rw [hp]; simp only [step, hl]) ⟨hc, rfl, hl⟩ (.inl (by rw [hp]; trivial)) (fun _ _ h => h)
        (keep _ (by simp [hp]))
    | some f =>
      have hf : f = .full (code i) := by
        rcases hs.libs _ f hl with ⟨t, ht, rfl, hm⟩ | ⟨-, j, hj⟩
        · rw [hinj ht (hS i) hm]
        · have hji := hs.one j i (by rw [hj]; trivial) (by rw [hp]; trivial)
          rw [hji, hp] at hj
          cases hj
      subst hf
      refine build s.dir (.loading (w.md5 (code i))) (by rw [hp]; simp only [step, hl]) ⟨rfl, hl⟩ (.inl (by rw [hp]; trivial)) (fun _ _ h => h)
        (keep _ (by simp [hp]))
  | missing h =>
    rw [hp] at hk
    obtain ⟨hc, rfl, hn⟩ := hk
    refine build { s.dir with libs := Function.update s.dir.libs (w.md5 (code i)) (some .part) } (.compiling (w.md5 (code i)) (code i))
      (by rw [hp]; simp only [step]; rw [hc, if_pos (hcomp i)]) ⟨rfl, rfl, by simp⟩ (.inl (by rw [hp]; trivial)) ?_ ?_
    · intro h t ht
      show Function.update _ _ _ _ = _
      rw [Function.update_of_ne]
      · exact ht
      · rintro rfl
        rw [hn] at ht
        cases ht
    · intro h f hf
      simp only at hf
      by_cases hh : h = w.md5 (code i)
      · subst hh
        rw [Function.update_self] at hf
        cases hf
        exact .inr ⟨rfl, i, by simp⟩
      · rw [Function.update_of_ne hh] at hf
        exact keep _ (by simp [hp]) h f hf
  | compiling h t =>
    rw [hp] at hk
    obtain ⟨rfl, rfl, hn⟩ := hk
    refine build { s.dir with libs := Function.update s.dir.libs (w.md5 (code i)) (some (.full (code i))) } (.loading (w.md5 (code i)))
      (by rw [hp]; rfl) ⟨rfl, by simp⟩ (.inl (by rw [hp]; trivial)) ?_ ?_
    · intro h t ht
      show Function.update _ _ _ _ = _
      rw [Function.update_of_ne]
      · exact ht
      · rintro rfl
        rw [hn] at ht
        cases ht
    · intro h f hf
      simp only at hf
      by_cases hh : h = w.md5 (code i)
      · subst hh
        rw [Function.update_self] at hf
        cases hf
        exact .inl ⟨_, hS i, rfl, rfl⟩
      · rw [Function.update_of_ne hh] at hf
        rcases hs.libs h f hf with h1 | ⟨h1, j, hj⟩
        · exact .inl h1
        · have hji := hs.one j i (by rw [hj]; trivial) (by rw [hp]; trivial)
          rw [hji, hp] at hj
          cases hj
          exact absurd rfl hh
  | loading h =>
    rw [hp] at hk
    obtain ⟨rfl, hl⟩ := hk
    refine build s.dir (.loaded (code i)) (by rw [hp]; simp only [step, hl, hfun i, if_true]) rfl (.inr (.inr ⟨rfl, fun h => h⟩)) (fun _ _ h => h)
      (keep _ (by simp [hp]))
  | loaded t =>
    rw [hp] at hk
    exact build s.dir (.loaded t) (by rw [hp]; rfl) hk (.inr (.inr ⟨rfl, fun h => h⟩)) (fun _ _ h => h) (keep _ (by simp [hp]))
  | failed =>
    rw [hp] at hk
    exact hk.elim
  | stopped =>
    exact build s.dir .stopped (by rw [hp]; rfl) trivial (.inr (.inr ⟨rfl, fun h => h⟩)) (fun _ _ h => h) (keep _ (by simp [hp]))

theorem inv_stop {w : World Text H} {code : Nat → Text} {S : Set Text} {s : Sys Text H} (hs : Inv w code S s) (i : Nat)
    (he : ¬ (s.phase i).Compiling) : Inv w code S (next w code s (.stop i)) := by
  refine ⟨fun j => ?_, fun j k hj hk => ?_, fun h f hf => ?_⟩
  · by_cases hj : j = i
    · subst hj
      simp [next, Known]
    · simp only [next, Function.update_of_ne hj]
      exact hs.known j
  · have e : ∀ m, ((next w code s (.stop i)).phase m).Critical → (s.phase m).Critical := by
      intro m hm
      by_cases hmi : m = i
      · subst hmi
        simp [next, Phase.Critical] at hm
      · simpa [next, Function.update_of_ne hmi] using hm
    exact hs.one j k (e j hj) (e k hk)
  · rcases hs.libs h f hf with h1 | ⟨h1, j, hj⟩
    · exact .inl h1
    · refine .inr ⟨h1, j, ?_⟩
      have : j ≠ i := by
        rintro rfl
        rw [hj] at he
        exact he trivial
      simpa [next, Function.update_of_ne this] using hj

theorem inv_run {w : World Text H} {code : Nat → Text} {S : Set Text} (hS : ∀ i, code i ∈ S) (hinj : Set.InjOn w.md5 S)
    (hcomp : ∀ i, w.compiles (code i) = true) (hfun : ∀ i, w.hasFunctions (code i) = true) (l : List Event) :
    ∀ {s : Sys Text H}, Inv w code S s → Exclusive w code s l → Inv w code S (run w code s l) := by
  induction l with
  | nil => exact fun h _ => h
  | cons e l ih =>
    intro s hs he
    cases e with
    | step i => exact ih (inv_next hS hinj hcomp hfun hs i he.1) he.2
    | stop i => exact ih (inv_stop hs i he.1) he.2

omit [DecidableEq H] in
theorem inv_init {w : World Text H} {code : Nat → Text} {S : Set Text} {d : Dir Text H} (hd : Clean w S d) :
    Inv w code S ⟨d, fun _ => .start⟩ :=
  ⟨fun _ => trivial, fun _ _ h => h.elim, fun h f hf => .inl (hd h f hf)⟩

/-- **C80.** Any number of processes in one directory, any history in which the sections from the generation of the code to the end of gcc do
not overlap and gcc is never stopped while it writes (processes may otherwise be stopped at any point, and everything else may interleave): no
process ever fails to load its library, and a process that has loaded one uses the functions of its own model. -/
theorem C80_exclusive (w : World Text H) (code : Nat → Text) (S : Set Text) (hS : ∀ i, code i ∈ S) (hinj : Set.InjOn w.md5 S)
    (hcomp : ∀ i, w.compiles (code i) = true) (hfun : ∀ i, w.hasFunctions (code i) = true) (d : Dir Text H) (hd : Clean w S d)
    (l : List Event) (hl : Exclusive w code ⟨d, fun _ => .start⟩ l) (i : Nat) :
    (run w code ⟨d, fun _ => .start⟩ l).phase i ≠ .failed ∧
      ∀ t, (run w code ⟨d, fun _ => .start⟩ l).phase i = .loaded t → t = code i := by
  have := (inv_run hS hinj hcomp hfun l (inv_init hd) hl).known i
  refine ⟨fun h => ?_, fun t h => ?_⟩ <;> rw [h] at this <;> exact this

/-! ## Runs one after the other -/

theorem solo_known {w : World Text H} {S : Set Text} (hinj : Set.InjOn w.md5 S) {c : Text} (hc : c ∈ S) (hcomp : w.compiles c = true)
    (hfun : w.hasFunctions c = true) {d : Dir Text H} (hd : Clean w S d) (k : Nat) :
    Known w c (solo w c d k).1 (solo w c d k).2 ∧ (¬ (solo w c d k).2.Compiling → Clean w S (solo w c d k).1) ∧
      ((solo w c d k).2.Compiling → Clean w S { (solo w c d k).1 with libs := Function.update (solo w c d k).1.libs (w.md5 c) (some (.full c)) }) ∧
      (solo w c d k).2 ≠ .stopped := by
  induction k with
  | zero => exact ⟨trivial, fun _ => hd, fun h => h.elim, by simp [solo]⟩
  | succ k ih =>
    obtain ⟨h1, h2, h3, h4⟩ := ih
    rw [solo]
    generalize solo w c d k = q at h1 h2 h3 h4
    obtain ⟨d1, p⟩ := q
    simp only at h1 h2 h3 h4 ⊢
    cases p with
    | start => exact ⟨trivial, fun _ => h2 (fun h => h), fun h => h.elim, by simp [step]⟩
    | truncated => exact ⟨rfl, fun _ => h2 (fun h => h), fun h => h.elim, by simp [step]⟩
    | generated => exact ⟨⟨h1, congrArg w.md5 h1⟩, fun _ => h2 (fun h => h), fun h => h.elim, by simp [step]⟩
    | hashed h =>
      obtain ⟨hcf, rfl⟩ := h1
      have hcl := h2 (fun h => h)
      cases hl : d1.libs (w.md5 c) with
      | none => simp only [step, hl]; exact ⟨⟨hcf, rfl, hl⟩, fun _ => hcl, fun h => h.elim, by simp⟩
      | some f =>
        obtain ⟨t, ht, rfl, hm⟩ := hcl _ _ hl
        rw [hinj ht hc hm] at hl
        simp only [step, hl]
        exact ⟨⟨rfl, hl⟩, fun _ => hcl, fun h => h.elim, by simp⟩
    | missing h =>
      obtain ⟨hcf, rfl, hn⟩ := h1
      have hcl := h2 (fun h => h)
      simp only [step]
      rw [hcf, if_pos hcomp]
      refine ⟨⟨rfl, rfl, by simp⟩, fun h => absurd trivial h, fun _ => ?_, by simp⟩
      intro h f hf
      simp only [Function.update_idem] at hf
      by_cases hh : h = w.md5 c
      · subst hh
        rw [Function.update_self] at hf
        cases hf
        exact ⟨c, hc, rfl, rfl⟩
      · rw [Function.update_of_ne hh] at hf
        exact hcl h f hf
    | compiling h t =>
      obtain ⟨rfl, rfl, hn⟩ := h1
      exact ⟨⟨rfl, by simp [step]⟩, fun _ => h3 trivial, fun h => h.elim, by simp [step]⟩
    | loading h =>
      obtain ⟨rfl, hl⟩ := h1
      simp only [step, hl, hfun, if_true]
      exact ⟨rfl, fun _ => h2 (fun h => h), fun h => h.elim, by simp⟩
    | loaded t => exact ⟨h1, fun _ => h2 (fun h => h), fun h => h.elim, by simp [step]⟩
    | failed => exact h1.elim
    | stopped => exact absurd rfl h4

/-- Steps left. -/
def Phase.rank : Phase Text H → Nat
  | .start => 7
  | .truncated => 6
  | .generated => 5
  | .hashed _ => 4
  | .missing _ => 3
  | .compiling _ _ => 2
  | .loading _ => 1
  | _ => 0

theorem rank_step (w : World Text H) (c : Text) (d : Dir Text H) (p : Phase Text H) : (step w c d p).2.rank ≤ p.rank - 1 := by
  cases p with
  | hashed h => cases hl : d.libs h <;> simp [step, hl, Phase.rank]
  | missing h => by_cases hc : w.compiles d.cfile = true <;> simp [step, hc, Phase.rank]
  | loading h =>
    cases hl : d.libs h with
    | none => simp [step, hl, Phase.rank]
    | some f =>
      cases f with
      | part => simp [step, hl, Phase.rank]
      | full t => by_cases hf : w.hasFunctions t = true <;> simp [step, hl, hf, Phase.rank]
  | _ => simp [step, Phase.rank]

omit [DecidableEq H] in
theorem loaded_of_rank {w : World Text H} {c : Text} {d : Dir Text H} {p : Phase Text H} (h : Known w c d p) (hs : p ≠ .stopped)
    (hr : p.rank = 0) : p = .loaded c := by
  cases p with
  | loaded t => rw [show t = c from h]
  | failed => exact h.elim
  | stopped => exact absurd rfl hs
  | _ => simp [Phase.rank] at hr

theorem step_stopped {w : World Text H} {c : Text} {d : Dir Text H} {p : Phase Text H} (hs : p ≠ .stopped) :
    (step w c d p).2 ≠ .stopped := by
  cases p with
  | hashed h => cases hl : d.libs h <;> simp [step, hl]
  | missing h => by_cases hc : w.compiles d.cfile = true <;> simp [step, hc]
  | loading h =>
    cases hl : d.libs h with
    | none => simp [step, hl]
    | some f =>
      cases f with
      | part => simp [step, hl]
      | full t => by_cases hf : w.hasFunctions t = true <;> simp [step, hl, hf]
  | stopped => exact absurd rfl hs
  | _ => simp [step]

/-- **C80.** After any such history, a process that was not stopped can finish: if no other process is between generation and the end of gcc,
seven steps of its own lead to its own model's functions, and these steps keep the history exclusive. -/
theorem C80_finish (w : World Text H) (code : Nat → Text) (S : Set Text) (hS : ∀ i, code i ∈ S) (hinj : Set.InjOn w.md5 S)
    (hcomp : ∀ i, w.compiles (code i) = true) (hfun : ∀ i, w.hasFunctions (code i) = true) (d : Dir Text H) (hd : Clean w S d)
    (l : List Event) (hl : Exclusive w code ⟨d, fun _ => .start⟩ l) (i : Nat)
    (hi : (run w code ⟨d, fun _ => .start⟩ l).phase i ≠ .stopped)
    (ho : ∀ j, j ≠ i → ¬ ((run w code ⟨d, fun _ => .start⟩ l).phase j).Critical) :
    Exclusive w code (run w code ⟨d, fun _ => .start⟩ l) (List.replicate 7 (.step i)) ∧
      (run w code (run w code ⟨d, fun _ => .start⟩ l) (List.replicate 7 (.step i))).phase i = .loaded (code i) := by
  have key : ∀ (k : Nat) (s : Sys Text H), Inv w code S s → s.phase i ≠ .stopped → (∀ j, j ≠ i → ¬ (s.phase j).Critical) →
      (s.phase i).rank ≤ k → Exclusive w code s (List.replicate k (.step i)) ∧
        (run w code s (List.replicate k (.step i))).phase i = .loaded (code i) := by
    intro k
    induction k with
    | zero => exact fun s hs h1 _ hr => ⟨trivial, loaded_of_rank (hs.known i) h1 (Nat.le_zero.mp hr)⟩
    | succ k ih =>
      intro s hs h1 h2 hr
      have hex : s.phase i = .start → ∀ j, ¬ (s.phase j).Critical := by
        intro h j hj
        by_cases hji : j = i
        · subst hji
          rw [h] at hj
          exact hj
        · exact h2 j hji hj
      have hn := inv_next hS hinj hcomp hfun hs i hex
      have := ih (next w code s (.step i)) hn (by simpa [next] using step_stopped h1)
        (fun j hj => by simpa [next, Function.update_of_ne hj] using h2 j hj)
        (by
          simp only [next, Function.update_self]
          have := rank_step w (code i) s.dir (s.phase i)
          omega)
      rw [List.replicate_succ]
      exact ⟨⟨hex, this.1⟩, this.2⟩
  refine key 7 _ (inv_run hS hinj hcomp hfun l (inv_init hd) hl) hi ho ?_
  generalize (run w code ⟨d, fun _ => .start⟩ l).phase i = p
  cases p <;> simp [Phase.rank]

theorem solo_rank (w : World Text H) (c : Text) (d : Dir Text H) (k : Nat) : (solo w c d k).2.rank ≤ 7 - k := by
  induction k with
  | zero => simp [solo, Phase.rank]
  | succ k ih =>
    have := rank_step w c (solo w c d k).1 (solo w c d k).2
    rw [solo]
    omega

/-- Where a run can be after `k` steps. -/
theorem solo_phase (w : World Text H) (c : Text) (d : Dir Text H) (k : Nat) :
    match (solo w c d k).2 with
    | .start => k = 0
    | .truncated => k = 1
    | .generated => k = 2
    | .hashed _ => k = 3
    | .missing _ => k = 4
    | .compiling _ _ => k = 5
    | _ => True := by
  induction k with
  | zero => simp [solo]
  | succ k ih =>
    rw [solo]
    generalize solo w c d k = q at ih
    obtain ⟨d1, p⟩ := q
    cases p with
    | hashed h => cases hl : d1.libs h <;> simp_all [step]
    | missing h => by_cases hc : w.compiles d1.cfile = true <;> simp_all [step]
    | loading h =>
      cases hl : d1.libs h with
      | none => simp [step, hl]
      | some f =>
        cases f with
        | part => simp [step, hl]
        | full t => by_cases hf : w.hasFunctions t = true <;> simp [step, hl, hf]
    | _ => simp_all [step]

/-- A run alone is the corresponding history of the system. -/
theorem solo_run (w : World Text H) (code : Nat → Text) (i : Nat) (s : Sys Text H) (h : s.phase i = .start) (k : Nat) :
    run w code s (List.replicate k (.step i)) = ⟨(solo w (code i) s.dir k).1, Function.update s.phase i (solo w (code i) s.dir k).2⟩ := by
  have app : ∀ (l m : List Event) (s : Sys Text H), run w code s (l ++ m) = run w code (run w code s l) m := by
    intro l
    induction l with
    | nil => exact fun m c => rfl
    | cons q l ih => exact fun m c => ih m _
  induction k with
  | zero =>
    simp only [List.replicate_zero, run, solo]
    rw [← h, Function.update_eq_self]
  | succ k ih =>
    rw [List.replicate_succ', app, ih]
    simp only [run, next, solo, Function.update_self, Function.update_idem]

theorem soloRuns_clean {w : World Text H} {S : Set Text} (hinj : Set.InjOn w.md5 S) (hcomp : ∀ c ∈ S, w.compiles c = true)
    (hfun : ∀ c ∈ S, w.hasFunctions c = true) (runs : List (Text × Nat)) : ∀ {d : Dir Text H}, Clean w S d → (∀ r ∈ runs, r.1 ∈ S ∧ r.2 ≠ 5) →
    Clean w S (soloRuns w d runs) := by
  induction runs with
  | nil => exact fun h _ => h
  | cons r runs ih =>
    intro d hd hr
    obtain ⟨h1, h2⟩ := hr r List.mem_cons_self
    refine ih ?_ fun q hq => hr q (List.mem_cons_of_mem _ hq)
    refine (solo_known hinj h1 (hcomp _ h1) (hfun _ h1) hd r.2).2.1 fun hc => h2 ?_
    have := solo_phase w r.1 d r.2
    cases hp : (solo w r.1 d r.2).2 <;> rw [hp] at hc this <;> simp_all [Phase.Compiling]

/-- **C80.** Runs one after the other in a directory, each stopped after any number of its seven steps except while gcc is writing (the
fifth): the next run loads the functions of its own model, whatever the codes and the order of the earlier runs. -/
theorem C80_sequential (w : World Text H) (S : Set Text) (hinj : Set.InjOn w.md5 S) (hcomp : ∀ c ∈ S, w.compiles c = true)
    (hfun : ∀ c ∈ S, w.hasFunctions c = true) (d : Dir Text H) (hd : Clean w S d) (runs : List (Text × Nat))
    (hr : ∀ r ∈ runs, r.1 ∈ S ∧ r.2 ≠ 5) (c : Text) (hc : c ∈ S) (k : Nat) (hk : 7 ≤ k) :
    (solo w c (soloRuns w d runs) k).2 = .loaded c := by
  obtain ⟨h1, -, -, h2⟩ := solo_known hinj hc (hcomp c hc) (hfun c hc) (soloRuns_clean hinj hcomp hfun runs hd hr) k
  refine loaded_of_rank h1 h2 ?_
  have := solo_rank w c (soloRuns w d runs) k
  omega

/-! ## Findings -/

/-- A library that is there is never touched by a run alone. -/
theorem solo_keeps (w : World Text H) (c : Text) (d : Dir Text H) (h : H) (f : Lib Text) (hf : d.libs h = some f) (k : Nat) :
    (solo w c d k).1.libs h = some f ∧
      match (solo w c d k).2 with
      | .missing h' => h' ≠ h
      | .compiling h' _ => h' ≠ h
      | _ => True := by
  induction k with
  | zero => exact ⟨hf, trivial⟩
  | succ k ih =>
    rw [solo]
    generalize solo w c d k = q at ih
    obtain ⟨d1, p⟩ := q
    obtain ⟨h1, h2⟩ := ih
    simp only at h1 h2
    cases p with
    | hashed h' =>
      cases hl : d1.libs h' with
      | none =>
        simp only [step, hl]
        exact ⟨h1, by rintro rfl; rw [h1] at hl; cases hl⟩
      | some g => simp only [step, hl]; exact ⟨h1, trivial⟩
    | missing h' =>
      simp only [step]
      by_cases hc : w.compiles d1.cfile = true
      · rw [if_pos hc]
        exact ⟨by simp only; rw [Function.update_of_ne (Ne.symm h2)]; exact h1, h2⟩
      · rw [if_neg hc]
        exact ⟨h1, trivial⟩
    | compiling h' t =>
      simp only [step]
      exact ⟨by rw [Function.update_of_ne (Ne.symm h2)]; exact h1, trivial⟩
    | loading h' =>
      cases hl : d1.libs h' with
      | none => simp only [step, hl]; exact ⟨h1, trivial⟩
      | some g =>
        cases g with
        | part => simp only [step, hl]; exact ⟨h1, trivial⟩
        | full t =>
          simp only [step, hl]
          by_cases hc : w.hasFunctions t = true
          · rw [if_pos hc]; exact ⟨h1, trivial⟩
          · rw [if_neg hc]; exact ⟨h1, trivial⟩
    | _ => exact ⟨h1, trivial⟩

theorem soloRuns_keeps (w : World Text H) (h : H) (f : Lib Text) (runs : List (Text × Nat)) : ∀ {d : Dir Text H}, d.libs h = some f →
    (soloRuns w d runs).libs h = some f := by
  induction runs with
  | nil => exact fun h => h
  | cons r runs ih => exact fun hf => ih (solo_keeps w r.1 _ h f hf r.2).1

/-- A run whose library is there loads it unseen, after six steps. -/
theorem solo_hit (w : World Text H) (c : Text) (d : Dir Text H) (f : Lib Text) (hf : d.libs (w.md5 c) = some f) :
    (solo w c d 5).2 = match f with
      | .full t => if w.hasFunctions t then .loaded t else .failed
      | .part => .failed := by
  have e : (solo w c d 5) = step w c (step w c { d with cfile := c } (.hashed (w.md5 c))).1 (step w c { d with cfile := c } (.hashed (w.md5 c))).2 := rfl
  rw [e]
  simp only [step, hf]
  cases f with
  | part => rfl
  | full t =>
    by_cases h : w.hasFunctions t = true
    · simp [h]
    · simp [h]

/-- **C80** (finding). A process stopped while gcc writes its library leaves the incomplete file, and from then on every run of the same model
in that directory fails, whatever other runs happen in between: the file is never replaced. -/
theorem C80_stopped_compiler (w : World Text H) (c : Text) (d : Dir Text H) (hn : d.libs (w.md5 c) = none) (hc : w.compiles c = true)
    (runs : List (Text × Nat)) :
    (solo w c (soloRuns w (solo w c d 5).1 runs) 5).2 = .failed := by
  have hp : (solo w c d 5).1.libs (w.md5 c) = some .part := by
    have e : (solo w c d 5) = step w c (step w c { d with cfile := c } (.hashed (w.md5 c))).1 (step w c { d with cfile := c } (.hashed (w.md5 c))).2 :=
      rfl
    rw [e]
    simp only [step, hn, hc, if_true]
    exact Function.update_self _ _ _
  exact solo_hit w c _ _ (soloRuns_keeps w _ _ runs hp)

/-- **C80** (finding). Two processes that build different models in one directory at the same time: the first takes the sum of its own code, the
second overwrites the file, and gcc compiles the second model under the first one's name. The first process computes with the second model's
functions, and so does every later run of the first model, without any error. -/
theorem C80_race_poisons_cache (w : World Text H) (code : Nat → Text) (d : Dir Text H) (hn : d.libs (w.md5 (code 0)) = none)
    (hc : w.compiles (code 1) = true) (hf : w.hasFunctions (code 1) = true) :
    let s := run w code ⟨d, fun _ => .start⟩ ([0, 0, 0, 0, 1, 1, 0, 0, 0].map .step)
    s.phase 0 = .loaded (code 1) ∧ ∀ runs, (solo w (code 0) (soloRuns w s.dir runs) 5).2 = .loaded (code 1) := by
  have hd : (run w code ⟨d, fun _ => .start⟩ ([0, 0, 0, 0, 1, 1, 0, 0, 0].map .step)).dir.libs (w.md5 (code 0)) = some (.full (code 1)) ∧
      (run w code ⟨d, fun _ => .start⟩ ([0, 0, 0, 0, 1, 1, 0, 0, 0].map .step)).phase 0 = .loaded (code 1) := by
    simp [run, next, step, hn, hc, hf]
  refine ⟨hd.2, fun runs => ?_⟩
  rw [solo_hit w _ _ _ (soloRuns_keeps w _ _ runs hd.1)]
  simp [hf]

/-- **C80** (finding). The same happens when both libraries are already there: a process whose file is overwritten before it takes the sum
silently uses the other model. -/
theorem C80_race_wrong_model (w : World Text H) (code : Nat → Text) (d : Dir Text H) (h1 : d.libs (w.md5 (code 1)) = some (.full (code 1)))
    (hf : w.hasFunctions (code 1) = true) :
    (run w code ⟨d, fun _ => .start⟩ ([0, 0, 1, 1, 0, 0, 0].map .step)).phase 0 = .loaded (code 1) := by
  simp [run, next, step, h1, hf]

/-- **C80** (finding). Even two processes that build the same model at the same time fail: the second finds the library the first is still
writing. -/
theorem C80_race_same_model (w : World Text H) (c : Text) (d : Dir Text H) (hn : d.libs (w.md5 c) = none) (hc : w.compiles c = true) :
    (run w (fun _ => c) ⟨d, fun _ => .start⟩ ([0, 0, 0, 0, 0, 1, 1, 1, 1, 1].map .step)).phase 1 = .failed := by
  simp [run, next, step, hn, hc]

/-- **C80.** A compilation that fails raises when the library is loaded and leaves none behind, so a later run compiles again. -/
theorem C80_failed_compiler (w : World Text H) (c : Text) (d : Dir Text H) (hn : d.libs (w.md5 c) = none) (hc : w.compiles c = false) (k : Nat)
    (hk : 6 ≤ k) : (solo w c d k).2 = .failed ∧ (solo w c d k).1.libs = d.libs := by
  obtain ⟨m, rfl⟩ := Nat.exists_eq_add_of_le' hk
  induction m with
  | zero =>
    have e : (solo w c d (0 + 6)) = step w c (step w c (step w c { d with cfile := c } (.hashed (w.md5 c))).1 (step w c { d with cfile := c } (.hashed (w.md5 c))).2).1
      (step w c (step w c { d with cfile := c } (.hashed (w.md5 c))).1 (step w c { d with cfile := c } (.hashed (w.md5 c))).2).2 := rfl
    rw [e]
    simp [step, hn, hc]
  | succ m ih =>
    have := ih (by omega)
    rw [show m + 1 + 6 = (m + 6) + 1 by omega, solo, this.1]
    exact ⟨rfl, this.2⟩

/-! ## The hypotheses are met -/

/-- Texts and names are numbers; the empty text is 0. -/
def demoWorld : World Nat Nat := { empty := 0, md5 := fun t => t + 100, compiles := fun _ => true, hasFunctions := fun t => t != 0 }

/-- An empty directory. -/
def emptyDir : Dir Nat Nat := { cfile := 0, libs := fun _ => none }

example : Clean demoWorld {t | t ≠ 0} emptyDir := fun _ _ h => nomatch h

/-- Two models; the first run is stopped before its compilation, the second completes, the third (of the first model) completes. -/
example : (solo demoWorld 7 (soloRuns demoWorld emptyDir [(7, 4), (8, 7)]) 7).2 = .loaded 7 :=
  C80_sequential demoWorld {t | t ≠ 0} (fun a _ b _ h => Nat.add_right_cancel h) (fun _ _ => rfl) (fun c hc => by simpa [demoWorld] using hc)
    emptyDir (fun _ _ h => nomatch h) _ (by simp) 7 (by simp) 7 (le_refl _)

/-- An exclusive history with interleaving: process 1 generates while process 0 is about to load. -/
example : Exclusive demoWorld (fun i => i + 1) ⟨emptyDir, fun _ => .start⟩ ([0, 0, 0, 0, 0, 0, 1, 1, 0, 1, 1, 1, 1, 1].map .step) := by
  simp only [List.map, Exclusive, and_true]
  refine ⟨fun _ j h => h, ?_, ?_, ?_, ?_, ?_, fun _ j => ?_, ?_, ?_, ?_, ?_, ?_, ?_, ?_⟩
  case refine_6 =>
    by_cases hj : j = 0
    · subst hj
      simp [next, step, demoWorld, emptyDir, Phase.Critical]
    · simp [next, step, Function.update_of_ne hj, Phase.Critical]
  all_goals simp [next, step, demoWorld, emptyDir]

end Lumos.Cache
