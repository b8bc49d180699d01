import Verif.Lemmas.KindsFlag

/-!
# The equations of one parameter without its internal state
-/

namespace Verif.Kinds

open Verif.Params

variable {W : Type} {bs : List Builder} {h : Record W} {e : Env}

/-- A record with the internal states of one parameter. -/
def withInner (h : Record W) (st hl : Nat → Inner) : History Val Inner W where
  value := h.value
  start := fun t _ => st t
  held := fun t _ => hl t
  world := h.world
  ready := h.ready

theorem meaning_of_value {S S' : Type} {G : History Val S W} {G' : History Val S' W} (hv : G.value = G'.value) (z : Val)
    (stage : Stage) (t : Nat) (m : Name) (sh : Shape) : G.meaning z stage t m sh = G'.meaning z stage t m sh := by
  cases sh <;> simp only [History.meaning, hv]
  split_ifs
  · rfl
  · cases t <;> simp only [History.previous, hv]

theorem given_of_value {S S' : Type} {G : History Val S W} {G' : History Val S' W} (hv : G.value = G'.value) {z : Val}
    {stage : Stage} {t : Nat} {us : List Use} {vs : List Val} :
    Given bs G z stage t us vs ↔ Given bs G' z stage t us vs := by
  unfold Given
  have : Means bs G z stage t = Means bs G' z stage t := by
    funext u v
    simp only [Means, meaning_of_value hv]
  rw [this]

theorem given_unique (hn : (bs.map Builder.name).Nodup) {stage : Stage} {t : Nat} {us : List Use} {vs vs' : List Val}
    (h1 : Given bs h ⟨0, 0⟩ stage t us vs) (h2 : Given bs h ⟨0, 0⟩ stage t us vs') : vs = vs' := by
  unfold Given at h1 h2
  generalize us.filter (fun u => u.ref.target.isSome) = l at h1 h2
  induction h1 generalizing vs' with
  | nil => cases h2; rfl
  | cons a _ ih =>
    cases h2 with
    | cons b c => rw [Means.unique' hn a b, ih c]

/-- The results of the metrics of a parameter. -/
theorem results (hn : (bs.map Builder.name).Nodup) {name : Name} {k : Kind W} {form : Form}
    (ht : Takes bs (k.builder name) form) (stage : Stage) (t : Nat) :
    ∃ xs, List.Forall₂ (Result bs h stage t k.phase) k.sources xs ∧
      ∀ (Q : List (Option Val) → Prop) (st hl : Nat → Inner),
        (∃ vs, Given bs (withInner h st hl) ⟨0, 0⟩ stage t (k.builder name).uses vs ∧
          Q (fetch (visible h stage t) k.sources vs)) ↔ Q xs := by
  obtain ⟨vs, hg⟩ := given_exists (h := h) (stage := stage) (t := t) (k.builder name).uses (Takes.gives ht)
  refine ⟨_, fetch_result hn k.sources vs hg, fun Q st hl => ?_⟩
  constructor
  · rintro ⟨vs', h1, h2⟩
    have h3 : Given bs h ⟨0, 0⟩ stage t (k.builder name).uses vs' := (given_of_value rfl).1 h1
    rwa [given_unique hn hg h3]
  · exact fun hq => ⟨vs, (given_of_value rfl).2 hg, hq⟩

/-- The equations of one parameter, with internal states. -/
def Equations (bs : List Builder) (k : Calcs Val Inner W) (h : Record W) (n : Nat) (b : Builder) (form : Form)
    (st hl : Nat → Inner) : Prop :=
  ConstHolds bs k (withInner h st hl) b form ∧ ∀ t < n, BeforeHolds bs k (withInner h st hl) t b form ∧
    AfterHolds bs k (withInner h st hl) t b form

theorem filter_before {k : Kind W} {name : Name} (hp : k.phase ≠ .after) :
    ((k.builder name).uses.filter fun u => u.phase ≠ .after) = (k.builder name).uses := by
  refine List.filter_eq_self.2 fun u hu => ?_
  obtain ⟨s, -, rfl⟩ := List.mem_map.1 hu
  simpa using hp

theorem filter_after {k : Kind W} {name : Name} (hp : k.phase ≠ .before) :
    ((k.builder name).uses.filter fun u => u.phase ≠ .before) = (k.builder name).uses := by
  refine List.filter_eq_self.2 fun u hu => ?_
  obtain ⟨s, -, rfl⟩ := List.mem_map.1 hu
  simpa using hp

theorem filter_none {k : Kind W} {name : Name} (hp : k.phase = .after) :
    ((k.builder name).uses.filter fun u => u.phase ≠ .after) = [] := by
  refine List.filter_eq_nil_iff.2 fun u hu => ?_
  obtain ⟨s, -, rfl⟩ := List.mem_map.1 hu
  simpa using hp

section Forms

variable {ps : List (Param W)} {nodes solve : Nat → W → List Val → Option W} {name : Name} {k : Kind W} {n : Nat}

theorem const_const (hn : (bs.map Builder.name).Nodup) (hk : kindOf ps name = some k)
    (ht : Takes bs (k.builder name) .const) :
    ∃ xs, List.Forall₂ (Result bs h .const 0 k.phase) k.sources xs ∧ ∀ st hl,
      (ConstHolds bs (calcs e ps nodes solve) (withInner h st hl) (k.builder name) .const ↔
        k.calc e .const 0 k.setup xs = some (h.value 0 .const name, st 0)) := by
  obtain ⟨xs, h1, h2⟩ := results (h := h) hn ht .const 0
  refine ⟨xs, h1, fun st hl => ?_⟩
  unfold ConstHolds
  rw [if_pos rfl]
  have := h2 (fun xs => k.calc e .const 0 k.setup xs = some (h.value 0 .const name, st 0)) st hl
  simp only [calcs, Kind.builder, hk, Kind.compute, withInner] at this ⊢
  exact this

theorem const_other (hk : kindOf ps name = some k) {form : Form} (hf : form ≠ .const) (st hl : Nat → Inner) :
    ConstHolds bs (calcs e ps nodes solve) (withInner h st hl) (k.builder name) form ↔ st 0 = k.setup := by
  unfold ConstHolds
  rw [if_neg hf]
  simp only [calcs, Kind.builder, hk, withInner]

theorem before_simple (hn : (bs.map Builder.name).Nodup) (hk : kindOf ps name = some k)
    (ht : Takes bs (k.builder name) .simple) (t : Nat) :
    ∃ xs, List.Forall₂ (Result bs h .simple t k.phase) k.sources xs ∧ ∀ st hl,
      (BeforeHolds bs (calcs e ps nodes solve) (withInner h st hl) t (k.builder name) .simple ↔
        k.calc e .simple t (st t) xs = some (h.value t .simple name, hl t)) := by
  obtain ⟨xs, h1, h2⟩ := results (h := h) hn ht .simple t
  refine ⟨xs, h1, fun st hl => ?_⟩
  have := h2 (fun xs => k.calc e .simple t (st t) xs = some (h.value t .simple name, hl t)) st hl
  simp only [BeforeHolds, calcs, Kind.builder, hk, Kind.compute, withInner] at this ⊢
  exact this

theorem before_general (hn : (bs.map Builder.name).Nodup) (hk : kindOf ps name = some k) {a : AfterOp}
    (ht : Takes bs (k.builder name) (.general true a)) (hp : k.phase ≠ .after) (t : Nat) :
    ∃ xs, List.Forall₂ (Result bs h .before t k.phase) k.sources xs ∧ ∀ st hl,
      (BeforeHolds bs (calcs e ps nodes solve) (withInner h st hl) t (k.builder name) (.general true a) ↔
        k.calc e .before t (st t) xs = some (h.value t .before name, hl t)) := by
  obtain ⟨xs, h1, h2⟩ := results (h := h) hn ht .before t
  refine ⟨xs, h1, fun st hl => ?_⟩
  have := h2 (fun xs => k.calc e .before t (st t) xs = some (h.value t .before name, hl t)) st hl
  simp only [BeforeHolds, filter_before hp]
  simp only [calcs, Kind.builder, hk, Kind.compute, withInner] at this ⊢
  exact this

theorem before_memory (hk : kindOf ps name = some k) {a : AfterOp} (hp : k.phase = .after) (t : Nat)
    (hc : ∀ s xs ys, k.calc e .before t s xs = k.calc e .before t s ys) (st hl : Nat → Inner) :
    BeforeHolds bs (calcs e ps nodes solve) (withInner h st hl) t (k.builder name) (.general true a) ↔
        k.calc e .before t (st t) [] = some (h.value t .before name, hl t) := by
  simp only [BeforeHolds, filter_none hp]
  simp only [Given, List.filter_nil, List.forall₂_nil_left_iff, exists_eq_left, calcs, Kind.builder, hk, Kind.compute,
    withInner]
  rw [hc _ _ []]

theorem after_value (hn : (bs.map Builder.name).Nodup) (hk : kindOf ps name = some k) {b : Bool}
    (ht : Takes bs (k.builder name) (.general b .value)) (hp : k.phase ≠ .before) (t : Nat) :
    ∃ xs, List.Forall₂ (Result bs h .after t k.phase) k.sources xs ∧ ∀ st hl,
      (AfterHolds bs (calcs e ps nodes solve) (withInner h st hl) t (k.builder name) (.general b .value) ↔
        k.calc e .after t (hl t) xs = some (h.value t .after name, st (t + 1))) := by
  obtain ⟨xs, h1, h2⟩ := results (h := h) hn ht .after t
  refine ⟨xs, h1, fun st hl => ?_⟩
  have := h2 (fun xs => k.calc e .after t (hl t) xs = some (h.value t .after name, st (t + 1))) st hl
  simp only [AfterHolds, filter_after hp]
  simp only [calcs, Kind.builder, hk, Kind.compute, withInner] at this ⊢
  exact this

theorem after_hook (hn : (bs.map Builder.name).Nodup) (hk : kindOf ps name = some k) {b : Bool}
    (ht : Takes bs (k.builder name) (.general b .hook)) (hp : k.phase ≠ .before) (t : Nat) :
    ∃ xs, List.Forall₂ (Result bs h .after t k.phase) k.sources xs ∧ ∀ st hl,
      (AfterHolds bs (calcs e ps nodes solve) (withInner h st hl) t (k.builder name) (.general b .hook) ↔
        k.remember (hl t) xs = some (st (t + 1))) := by
  obtain ⟨xs, h1, h2⟩ := results (h := h) hn ht .after t
  refine ⟨xs, h1, fun st hl => ?_⟩
  have := h2 (fun xs => k.remember (hl t) xs = some (st (t + 1))) st hl
  simp only [AfterHolds, filter_after hp]
  simp only [calcs, Kind.builder, hk, Kind.hook, withInner] at this ⊢
  exact this

theorem after_none {form : Form} (hf : form = .const ∨ form = .simple ∨ ∃ b, form = .general b .none) (t : Nat)
    (st hl : Nat → Inner) :
    AfterHolds bs (calcs e ps nodes solve) (withInner h st hl) t (k.builder name) form ↔ st (t + 1) = hl t := by
  rcases hf with rfl | rfl | ⟨b, rfl⟩ <;> rfl

theorem before_none {form : Form} (hf : form = .const ∨ ∃ a, form = .general false a) (t : Nat) (st hl : Nat → Inner) :
    BeforeHolds bs (calcs e ps nodes solve) (withInner h st hl) t (k.builder name) form ↔ hl t = st t := by
  rcases hf with rfl | ⟨b, rfl⟩ <;> rfl

end Forms

/-- A metric of a parameter in its simple form shows the same all through a step. -/
theorem shows_simple (hn : (bs.map Builder.name).Nodup) {name : Name} {k : Kind W}
    (ht : Takes bs (k.builder name) .simple) (hs : ∃ a, k.style = .simpleOr a) {s : Source W} (hm : s ∈ k.sources)
    (t : Nat) (stage : Stage) (v : Val) : Shows bs h .simple t k.phase s v ↔ Shows bs h stage t k.phase s v := by
  obtain ⟨shapes, h1, h2⟩ := ht
  obtain ⟨a, hs⟩ := hs
  have h3 : shapes.all Shape.isSimple = true := by
    by_contra hne
    have : (k.builder name).style = .simpleOr a := hs
    rw [this, formOf, if_neg hne] at h2
    cases h2
  have h4 : ∃ sh, sh.isSimple = true ∧ ((s.ref = .literal ∧ sh = .literal) ∨ (s.ref = .component ∧ sh = .component) ∨
      Gives bs ⟨s.ref, k.phase⟩ sh) := by
    have hm' : (⟨s.ref, k.phase⟩ : Use) ∈ (k.builder name).uses := List.mem_map.2 ⟨s, hm, rfl⟩
    generalize (k.builder name).uses = us at h1 hm'
    clear h2
    induction h1 with
    | nil => cases hm'
    | @cons u sh _ _ h5 _ ih =>
      rw [List.all_cons, Bool.and_eq_true] at h3
      rcases List.mem_cons.1 hm' with rfl | hm'
      · exact ⟨sh, h3.1, h5⟩
      · exact ih h3.2 hm'
  obtain ⟨sh, h5, h6⟩ := h4
  cases s with
  | lit x => rfl
  | node f =>
    exfalso
    rcases h6 with ⟨h7, -⟩ | ⟨-, rfl⟩ | ⟨b, -, h7, -⟩
    · cases h7
    · cases h5
    · cases h7
  | param r =>
    simp only [Shows, Means]
    rcases h6 with ⟨h7, -⟩ | ⟨h7, -⟩ | h6
    · simp only [Source.ref] at h7; subst h7; simp [Ref.target]
    · simp only [Source.ref] at h7; subst h7; simp [Ref.target]
    · have : ∀ sh', Gives bs ⟨r, k.phase⟩ sh' → ∀ m, h.meaning ⟨0, 0⟩ .simple t m sh' = h.meaning ⟨0, 0⟩ stage t m sh' := by
        intro sh' hg m
        obtain rfl := hg.unique hn h6
        cases sh' <;> first | rfl | cases h5
      constructor
      · rintro ⟨m, sh', h7, h8, rfl⟩
        exact ⟨m, sh', h7, h8, this sh' h8 m⟩
      · rintro ⟨m, sh', h7, h8, rfl⟩
        exact ⟨m, sh', h7, h8, (this sh' h8 m).symm⟩

end Verif.Kinds
