import Verif.Lemmas.ParamsExec

/-!
# C38, C40: building, evaluating and observing parameters
-/

namespace Verif.Params

/-! ## Concrete parameters used as witnesses

Numbers as names.  `3` is a constant, `2` adds the constant `3` and a literal, `1` takes the flow of
a node and the "before" value of `2`, `0` is a deficit known after the solver only, and `4` uses
last step's value of `0`.  They are defined in an order in which most have to wait. -/

def sampleBuilders : List Builder :=
  [⟨4, .f64, [⟨.value 0 .afterOrInitial, .before⟩, ⟨.value 1 .before, .before⟩], .general true .none,
      fun _ => true⟩,
   ⟨0, .f64, [⟨.value 1 .before, .after⟩, ⟨.component, .after⟩], .general false .value, fun _ => true⟩,
   ⟨1, .f64, [⟨.component, .before⟩, ⟨.value 2 .before, .before⟩], .general true .none, fun _ => true⟩,
   ⟨2, .f64, [⟨.value 3 .before, .before⟩, ⟨.literal, .before⟩], .simplest, fun _ => true⟩,
   ⟨3, .u64, [], .constant, fun _ => true⟩]

/-- The names of a schedule. -/
def scheduleNames (r : Option (Except BuildError Collection)) (st : Stage) : Option (List Name) :=
  match r with
  | some (.ok c) => some ((c.ops st).map Op.name)
  | _ => none

def errorOf (r : Option (Except BuildError Collection)) : Option BuildError :=
  match r with
  | some (.error e) => some e
  | _ => none

example : ∀ b ∈ sampleBuilders, WellFormed b := by decide

example : scheduleNames (build 6 sampleBuilders) .const = some [3, 2] ∧
    scheduleNames (build 6 sampleBuilders) .simple = some [] ∧
    scheduleNames (build 6 sampleBuilders) .before = some [1, 4] ∧
    scheduleNames (build 6 sampleBuilders) .after = some [0] := by decide

/-- A cycle of two, a parameter that depends on it, and an unrelated one. -/
def cyclicBuilders : List Builder :=
  [⟨0, .f64, [⟨.value 1 .before, .before⟩], .simplest, fun _ => true⟩,
   ⟨1, .f64, [⟨.value 2 .before, .before⟩], .simplest, fun _ => true⟩,
   ⟨2, .f64, [⟨.value 1 .before, .before⟩], .simplest, fun _ => true⟩,
   ⟨3, .f64, [], .constant, fun _ => true⟩]

example : errorOf (build 5 cyclicBuilders) = some (.circular [0, 1, 2]) := by decide

/-- A reference to a parameter that does not exist. -/
def missingBuilders : List Builder :=
  [⟨0, .f64, [⟨.value 1 .before, .before⟩], .simplest, fun _ => true⟩,
   ⟨1, .f64, [⟨.value 7 .before, .before⟩], .simplest, fun _ => true⟩]

example : errorOf (build 3 missingBuilders) = some (.notFound 7) := by decide

/-- A "before" calculation asking for an end-of-step value. -/
def tooEarlyBuilders : List Builder :=
  [⟨0, .f64, [], .general false .value, fun _ => true⟩,
   ⟨1, .f64, [⟨.value 0 .after, .before⟩], .general true .none, fun _ => true⟩]

example : errorOf (build 3 tooEarlyBuilders) = some (.buildFailed 1) := by decide

/-! ## C38 -/

/-- The build ends after at most one round per parameter (and one to notice), whatever the
builders are. -/
theorem C38_terminates (bs : List Builder) (fuel : Nat) (hf : bs.length < fuel) :
    ∃ r, build fuel bs = some r ∧ ∀ fuel', fuel ≤ fuel' → build fuel' bs = some r := by
  have hp := (arrange_perm bs).length_eq
  unfold build
  simp only
  split
  · exact ⟨_, rfl, fun _ _ => rfl⟩
  · obtain ⟨r, hr⟩ := Option.ne_none_iff_exists'.1
      (loop_terminates fuel (arrange bs) Collection.empty (by omega))
    refine ⟨r, hr, ?_⟩
    intro fuel' hle
    induction hle with
    | refl => exact hr
    | step _ ih => exact loop_fuel _ _ _ _ ih

/-- Building succeeds iff the names are distinct and every parameter can be calculated, i.e.
passes its own checks and refers only to parameters that can be calculated and that offer what is
asked for (see `Calculable`). -/
theorem C38_succeeds_iff (bs : List Builder) (fuel : Nat) (hw : ∀ b ∈ bs, WellFormed b)
    (hf : bs.length < fuel) :
    (∃ c, build fuel bs = some (.ok c)) ↔
      (bs.map Builder.name).Nodup ∧ ∀ b ∈ bs, ∃ k, Calculable bs b.name b.ty k := by
  rcases build_spec hw hf with ⟨n, h1, h2, -⟩ | ⟨hn, ⟨done, c, h1, h2, h3⟩ | ⟨done, rest, c, e, h1, h2, h3, h4⟩⟩
  · rw [h1]
    constructor
    · rintro ⟨c, h⟩; cases h
    · rintro ⟨h, -⟩; exact absurd h h2
  · rw [h1]
    refine ⟨fun _ => ⟨hn, ?_⟩, fun _ => ⟨c, rfl⟩⟩
    intro b hb
    obtain ⟨idx, -, h5⟩ := h2.calculable (fun b hb => h3.mem_iff.1 hb) done [] (by simp) b
      (h3.mem_iff.2 hb)
    exact ⟨_, h5⟩
  · rw [h1]
    constructor
    · rintro ⟨c, h⟩; cases h
    · rintro ⟨-, hall⟩
      obtain ⟨b, hb, h5⟩ := h2.blocked h3 hn h4
      obtain ⟨k, h6⟩ := hall b (h3.mem_iff.1 (List.mem_append_right _ hb))
      exact absurd h6 (h5 _ _)

/-- If building succeeds, the names are distinct, every reference names an existing parameter
with a value of the right kind, and no parameter depends on itself. -/
theorem C38_success_graph (bs : List Builder) (fuel : Nat) (c : Collection)
    (hw : ∀ b ∈ bs, WellFormed b) (hf : bs.length < fuel) (h : build fuel bs = some (.ok c)) :
    (bs.map Builder.name).Nodup ∧ Complete bs ∧ Acyclic bs := by
  rcases build_spec hw hf with ⟨n, h1, -⟩ | ⟨hn, ⟨done, c', h1, h2, h3⟩ | ⟨done, rest, c', e, h1, -⟩⟩
  · rw [h1] at h; cases h
  · refine ⟨hn, ?_, ?_⟩
    · intro b hb u hu ht
      obtain ⟨pre, post, he⟩ := List.append_of_mem (h3.mem_iff.2 hb)
      obtain ⟨b', hb', h4⟩ := h2.dep pre b post he u hu ht
      exact ⟨b', h3.mem_iff.1 (by rw [he]; exact List.mem_append_left _ hb'), h4⟩
    · intro n hcyc
      have : ∀ m, Relation.TransGen (Refers bs) n m →
          (done.map Builder.name).idxOf m < (done.map Builder.name).idxOf n := by
        intro m hm
        induction hm with
        | single hr => exact h2.idxOf_lt h3 hr
        | tail _ hr ih => exact Nat.lt_trans (h2.idxOf_lt h3 hr) ih
      exact Nat.lt_irrefl _ (this n hcyc)
  · rw [h1] at h; cases h

/-- Conversely, with distinct names, complete references and no cycle, building only fails if some
builder itself reports a problem (a check of its own, or a value that its phase cannot have). -/
theorem C38_graph_succeeds (bs : List Builder) (fuel : Nat) (hw : ∀ b ∈ bs, WellFormed b)
    (hf : bs.length < fuel) (hn : (bs.map Builder.name).Nodup) (hc : Complete bs) (ha : Acyclic bs) :
    (∃ c, build fuel bs = some (.ok c)) ∨
      ∃ b ∈ bs, build fuel bs = some (.error (.buildFailed b.name)) ∧
        ∀ t k, ¬ Calculable bs b.name t k := by
  rcases build_spec hw hf with ⟨n, -, h2, -⟩ | ⟨-, ⟨done, c, h1, -⟩ | ⟨done, rest, c, e, h1, h2, h3, h4⟩⟩
  · exact absurd hn h2
  · exact Or.inl ⟨c, h1⟩
  · have hsub : ∀ b ∈ done, b ∈ bs := fun b hb => h3.mem_iff.1 (List.mem_append_left _ hb)
    rcases h4 with ⟨b, hb, rfl, hfail⟩ | ⟨failed, -, h5, h6, h7⟩
    · have hb' := h3.mem_iff.1 (List.mem_append_right _ hb)
      exact Or.inr ⟨b, hb', h1, fun t k hcalc => h2.not_failed hsub hn hb' hcalc hfail⟩
    · exfalso
      have hstep : ∀ n ∈ rest.map Builder.name, ∃ m ∈ rest.map Builder.name, Refers bs n m := by
        intro n hn'
        obtain ⟨b, hb, rfl⟩ := List.mem_map.1 hn'
        have hb0 := hb
        rw [← h5, List.mem_map] at hb
        obtain ⟨f, hf', rfl⟩ := hb
        have hmem := h3.mem_iff.1 (List.mem_append_right done hb0)
        obtain ⟨u, hu, h8, h9⟩ := h2.waits h3 (h7 f hf')
        obtain ⟨b', hb', h10, -⟩ := h9 (hc _ hmem u hu (by rw [h8]; simp))
        exact ⟨f.2, by rw [← h10]; exact List.mem_map_of_mem hb', f.1, hmem, rfl, u, hu, h8⟩
      obtain ⟨n, -, hcyc⟩ := exists_cycle (Refers bs) (rest.map Builder.name) (by simpa using h6) hstep
      exact ha n (Relation.TransGen.mono (p := Refers bs) (fun a b h => h.2.2) n n hcyc)

/-- A reported duplicate is one. -/
theorem C38_duplicate_real (bs : List Builder) (fuel : Nat) (n : Name) (hw : ∀ b ∈ bs, WellFormed b)
    (hf : bs.length < fuel) (h : build fuel bs = some (.error (.duplicate n))) :
    2 ≤ (bs.map Builder.name).count n := by
  rcases build_spec hw hf with ⟨n', h1, -, h2⟩ | ⟨-, ⟨done, c, h1, -⟩ | ⟨done, rest, c, e, h1, h2, h3, h4⟩⟩
  · rw [h1] at h; cases h; exact h2
  · rw [h1] at h; cases h
  · rw [h1] at h; cases h
    rcases h4 with ⟨b, hb, h5, -⟩ | ⟨failed, h5, -⟩
    · cases h5
    · unfold stuck at h5
      simp only at h5
      split at h5 <;> cases h5

/-- ... and every duplicate is reported. -/
theorem C38_duplicate_reported (bs : List Builder) (fuel : Nat) (hw : ∀ b ∈ bs, WellFormed b)
    (hf : bs.length < fuel) (hd : ¬ (bs.map Builder.name).Nodup) :
    ∃ n, build fuel bs = some (.error (.duplicate n)) := by
  rcases build_spec hw hf with ⟨n, h1, -⟩ | ⟨hn, -⟩
  · exact ⟨n, h1⟩
  · exact absurd hn hd

/-- A reported circular reference contains a cycle, all of it among the names reported, and
each of the names reported refers to another one of them. -/
theorem C38_circular_real (bs : List Builder) (fuel : Nat) (names : List Name)
    (hw : ∀ b ∈ bs, WellFormed b) (hf : bs.length < fuel)
    (h : build fuel bs = some (.error (.circular names))) :
    (∃ n ∈ names, Relation.TransGen (fun a b => a ∈ names ∧ b ∈ names ∧ Refers bs a b) n n) ∧
      ∀ n ∈ names, ∃ m ∈ names, Refers bs n m := by
  rcases build_spec hw hf with ⟨n', h1, -⟩ | ⟨-, ⟨done, c, h1, -⟩ | ⟨done, rest, c, e, h1, h2, h3, h4⟩⟩
  · rw [h1] at h; cases h
  · rw [h1] at h; cases h
  · rw [h1] at h; cases h
    rcases h4 with ⟨b, hb, h5, -⟩ | ⟨failed, h5, h6, h7, h8⟩
    · cases h5
    · unfold stuck at h5
      simp only at h5
      split at h5
      · cases h5
      · rename_i hnone
        rw [List.find?_eq_none] at hnone
        have hnames : names = rest.map Builder.name := by
          have := BuildError.circular.inj h5
          rw [this, ← h6, List.map_map]; rfl
        have hstep : ∀ n ∈ names, ∃ m ∈ names, Refers bs n m := by
          intro n hn
          rw [hnames, List.mem_map] at hn
          obtain ⟨b, hb, rfl⟩ := hn
          have hb0 := hb
          rw [← h6, List.mem_map] at hb
          obtain ⟨f, hf', rfl⟩ := hb
          obtain ⟨u, hu, h9, -⟩ := attempt_retry (h8 f hf')
          refine ⟨f.2, ?_, f.1, h3.mem_iff.1 (List.mem_append_right _ hb0), rfl, u, hu, h9⟩
          have := hnone f.2 (List.mem_map_of_mem hf')
          simp only [decide_eq_true_eq, not_not] at this
          rw [BuildError.circular.inj h5]
          exact this
        refine ⟨exists_cycle _ names ?_ hstep, hstep⟩
        rw [hnames]; simpa using h7

/-- A parameter reported as missing is referred to, and there is none of that name
with a value of the kind asked for. -/
theorem C38_missing_real (bs : List Builder) (fuel : Nat) (m : Name) (hw : ∀ b ∈ bs, WellFormed b)
    (hf : bs.length < fuel) (h : build fuel bs = some (.error (.notFound m))) :
    ∃ b ∈ bs, ∃ u ∈ b.uses, u.ref.target = some m ∧ ¬ Exists bs u.ref := by
  rcases build_spec hw hf with ⟨n', h1, -⟩ | ⟨hn, ⟨done, c, h1, -⟩ | ⟨done, rest, c, e, h1, h2, h3, h4⟩⟩
  · rw [h1] at h; cases h
  · rw [h1] at h; cases h
  · rw [h1] at h; cases h
    rcases h4 with ⟨b, hb, h5, -⟩ | ⟨failed, h5, h6, h7, h8⟩
    · cases h5
    · unfold stuck at h5
      simp only at h5
      split at h5
      · rename_i m' hfind
        cases h5
        have hm := List.mem_of_find?_eq_some hfind
        have hnot := List.find?_some hfind
        simp only [decide_eq_true_eq] at hnot
        obtain ⟨f, hf', rfl⟩ := List.mem_map.1 hm
        have hb : f.1 ∈ rest := by rw [← h6]; exact List.mem_map_of_mem hf'
        obtain ⟨u, hu, h9, h10⟩ := h2.waits h3 (h8 f hf')
        refine ⟨f.1, h3.mem_iff.1 (List.mem_append_right _ hb), u, hu, h9, ?_⟩
        intro hex
        obtain ⟨b', hb', h11, -⟩ := h10 hex
        apply hnot
        rw [← h6, List.mem_map] at hb'
        obtain ⟨f', hf'', rfl⟩ := hb'
        exact List.mem_map.2 ⟨f', hf'', h11⟩
      · cases h5

/-- The stronger reading, that no parameter of the reported name exists, fails: a number used
where an integer is needed is reported as missing although it is there. -/
theorem C38_missing_name_false :
    ¬ ∀ (bs : List Builder) (m : Name), (∀ b ∈ bs, WellFormed b) →
      build (bs.length + 1) bs = some (.error (.notFound m)) → ∀ b ∈ bs, b.name ≠ m := by
  intro h
  let bs : List Builder := [⟨0, .f64, [], .constant, fun _ => true⟩,
    ⟨1, .u64, [⟨.index 0 .before, .before⟩], .general true .none, fun _ => true⟩]
  exact h bs 0 (by decide) rfl _ (List.mem_cons_self ..) rfl

/-- A builder reported as failing cannot be calculated. -/
theorem C38_failure_real (bs : List Builder) (fuel : Nat) (n : Name) (hw : ∀ b ∈ bs, WellFormed b)
    (hf : bs.length < fuel) (h : build fuel bs = some (.error (.buildFailed n))) :
    n ∈ bs.map Builder.name ∧ ∀ t k, ¬ Calculable bs n t k := by
  rcases build_spec hw hf with ⟨n', h1, -⟩ | ⟨hn, ⟨done, c, h1, -⟩ | ⟨done, rest, c, e, h1, h2, h3, h4⟩⟩
  · rw [h1] at h; cases h
  · rw [h1] at h; cases h
  · rw [h1] at h; cases h
    rcases h4 with ⟨b, hb, h5, hfail⟩ | ⟨failed, h5, -⟩
    · cases h5
      have hb' := h3.mem_iff.1 (List.mem_append_right _ hb)
      refine ⟨List.mem_map_of_mem hb', fun t k hc => ?_⟩
      exact h2.not_failed (fun b hb => h3.mem_iff.1 (List.mem_append_left _ hb)) hn hb' hc hfail
    · unfold stuck at h5
      simp only at h5
      split at h5 <;> cases h5

/-- After a successful build every parameter is evaluated in exactly one way, with exactly the
references it has, and nothing else is evaluated. -/
theorem C38_once (bs : List Builder) (fuel : Nat) (c : Collection) (hw : ∀ b ∈ bs, WellFormed b)
    (hf : bs.length < fuel) (h : build fuel bs = some (.ok c)) :
    (∀ b ∈ bs, EvaluatedOnce c b) ∧ ∀ op ∈ sequence c, ∃ b ∈ bs, b.name = op.name := by
  rcases build_spec hw hf with ⟨n, h1, -⟩ | ⟨-, ⟨done, c', h1, h2, h3⟩ | ⟨done, rest, c', e, h1, -⟩⟩
  · rw [h1] at h; cases h
  · rw [h1] at h; cases h
    refine ⟨fun b hb => h2.once b (h3.mem_iff.2 hb), ?_⟩
    intro op hop
    have : ∃ st, op ∈ c.ops st := by
      simp only [sequence, List.mem_append] at hop
      rcases hop with ((hop | hop) | hop) | hop <;> exact ⟨_, hop⟩
    obtain ⟨st, hst⟩ := this
    obtain ⟨b, hb, he⟩ := List.mem_map.1 (h2.named st op hst)
    exact ⟨b, h3.mem_iff.1 hb, he⟩
  · rw [h1] at h; cases h

/-- Evaluation order: whatever a calculation refers to was written by an operation earlier in the
sequence, or is an end-of-step value accepted from the previous step. -/
theorem C38_order (bs : List Builder) (fuel : Nat) (c : Collection) (hw : ∀ b ∈ bs, WellFormed b)
    (hf : bs.length < fuel) (h : build fuel bs = some (.ok c)) (pre post : List Op) (op : Op)
    (hs : sequence c = pre ++ op :: post) (r : Read) (hr : r ∈ op.reads) (m : Name)
    (hm : r.use.ref.target = some m) :
    ∃ s p, r.metric = .slot s ∧ p.name = m ∧ p.out = some s ∧
      (p ∈ pre ∨ (r.use.ref.want = some .afterOrInitial ∧ op ∈ c.ops .before ∧ p ∈ c.ops .after)) := by
  rcases build_spec hw hf with ⟨n, h1, -⟩ | ⟨-, ⟨done, c', h1, h2, h3⟩ | ⟨done, rest, c', e, h1, -⟩⟩
  · rw [h1] at h; cases h
  · rw [h1] at h; cases h
    obtain ⟨st, pre', post', h4, h5, h6⟩ := sequence_split hs
    have hop : op ∈ c.ops st := by rw [h4]; simp
    obtain ⟨s, hslot⟩ := resolve_target (h2.res st op hop r hr) hm
    obtain ⟨p, h7, h8, h9⟩ := h2.ord st pre' op post' h4 r hr s hslot
    rw [hm, Option.some_inj] at h8
    refine ⟨s, p, hslot, h8.symm, h7, ?_⟩
    rcases h9 with ⟨h9, h10⟩ | ⟨-, h10⟩ | ⟨h9, -, h11, h12⟩
    · exact Or.inl (h6 _ h9 p h10)
    · exact Or.inl (h5 p h10)
    · exact Or.inr ⟨h11, by rw [← h9]; exact hop, h12⟩
  · rw [h1] at h; cases h

/-- The order in which parameters are defined does not matter: the same parameters in another
order give the same operations, of the same kinds and reading the same values, up to the positions
in the value arrays. -/
theorem C38_definition_order (bs bs' : List Builder) (fuel : Nat) (c : Collection)
    (hw : ∀ b ∈ bs, WellFormed b) (hf : bs.length < fuel) (hp : bs.Perm bs')
    (h : build fuel bs = some (.ok c)) :
    ∃ c', build fuel bs' = some (.ok c') ∧
      ∀ st n, (opsOf c st n).map Op.anon = (opsOf c' st n).map Op.anon := by
  have hw' : ∀ b ∈ bs', WellFormed b := fun b hb => hw b (hp.mem_iff.2 hb)
  have hf' : bs'.length < fuel := by rw [← hp.length_eq]; exact hf
  rcases build_spec hw hf with ⟨n, h1, -⟩ | ⟨hn, ⟨done, c₁, h1, h2, h3⟩ | ⟨done, rest, c', e, h1, -⟩⟩
  · rw [h1] at h; cases h
  · rw [h1] at h; cases h
    have hn' : (bs'.map Builder.name).Nodup := (hp.map Builder.name).nodup_iff.1 hn
    rcases build_spec hw' hf' with ⟨n, -, h4, -⟩ |
      ⟨-, ⟨done', c', h4, h5, h6⟩ | ⟨done', rest, c', e, h4, h5, h6, h7⟩⟩
    · exact absurd hn' h4
    · exact ⟨c', h4, h2.same_ops h5 (h3.trans (hp.trans h6.symm))⟩
    · exfalso
      obtain ⟨b, hb, h8⟩ := h5.blocked h6 hn' h7
      have hb' : b ∈ bs := hp.mem_iff.2 (h6.mem_iff.1 (List.mem_append_right _ hb))
      obtain ⟨idx, -, h9⟩ := h2.calculable (bs := bs')
        (fun b hb => hp.mem_iff.1 (h3.mem_iff.1 hb)) done [] (by simp) b (h3.mem_iff.2 hb')
      exact h8 _ _ h9
  · rw [h1] at h; cases h

example : scheduleNames (build 6 sampleBuilders.reverse) .before = some [1, 4] ∧
    scheduleNames (build 6 sampleBuilders.reverse) .const = some [2, 3].reverse := by decide

/-! ## C40 -/

/-- A reference to a parameter resolves iff the parameter offers what is asked for in that
phase, and then to a value of the phase offered. -/
theorem C40_resolves_iff (bs : List Builder) (fuel : Nat) (c : Collection)
    (hw : ∀ b ∈ bs, WellFormed b) (hf : bs.length < fuel) (h : build fuel bs = some (.ok c))
    (b : Builder) (hb : b ∈ bs) (p : Phase) (r : Ref) (ht : r.target = some b.name)
    (hu : r.Usable b.ty) :
    ∃ k, Calculable bs b.name b.ty k ∧
      (∀ sh, (∃ m, resolve c.maps p r = .ok m ∧ m.shape = sh) ↔ Offers p r k = some sh) := by
  rcases build_spec hw hf with ⟨n, h1, -⟩ | ⟨-, ⟨done, c', h1, h2, h3⟩ | ⟨done, rest, c', e, h1, -⟩⟩
  · rw [h1] at h; cases h
  · rw [h1] at h; cases h
    obtain ⟨idx, h4, h5⟩ := h2.calculable (fun b hb => h3.mem_iff.1 hb) done [] (by simp) b
      (h3.mem_iff.2 hb)
    refine ⟨_, h5, ?_⟩
    have ho := resolve_offers (by rw [h2.names]; exact h2.nodup) (p := p) ht hu h4
    intro sh
    constructor
    · rintro ⟨m, h6, rfl⟩
      cases hoff : Offers p r idx.kind with
      | none =>
        obtain ⟨w, -, h7⟩ := ho.2 hoff
        rw [h7] at h6; cases h6
      | some sh =>
        obtain ⟨m', h7, h8⟩ := ho.1 sh hoff
        rw [h7] at h6; cases h6
        rw [h8]
    · exact ho.1 sh
  · rw [h1] at h; cases h

/-- An end-of-step value is only given to a consumer after the solver, or to one that
explicitly accepts the previous one; a value from before the solver only to one that asks
for it, unless it is an integer of a constant or simple parameter. -/
theorem C40_offers_sound (p : Phase) (r : Ref) (k : Kind) (sh : Shape) (m : Name)
    (ht : r.target = some m) (h : Offers p r k = some sh) :
    (sh = .after → (r.want = some .after ∧ p = .after) ∨ r.want = some .afterOrInitial) ∧
    (sh = .before → r.want = some .before) ∧
    (r.want = some .after → p ≠ .after → sh = .const ∨ sh = .simple) ∧
    (r.Strict → (r.want = some .before ↔ sh ≠ .after)) := by
  cases r with
  | literal => cases ht
  | component => cases ht
  | value n w =>
    cases k <;> cases w <;> cases p <;> simp_all [Offers, Offers.strict, Offers.general, Ref.want,
      Ref.Strict] <;> grind
  | valueMulti n w =>
    cases k <;> cases w <;> cases p <;> simp_all [Offers, Offers.strict, Offers.general, Ref.want,
      Ref.Strict] <;> grind
  | index n w =>
    cases k <;> cases w <;> cases p <;> simp_all [Offers, Offers.lenient, Offers.general, Ref.want,
      Ref.Strict] <;> grind
  | indexMulti n w =>
    cases k <;> cases w <;> cases p <;> simp_all [Offers, Offers.lenient, Offers.general, Ref.want,
      Ref.Strict] <;> grind

/-- In every run, over any number of steps, each reference to a parameter sees a value of that
parameter that was calculated in the same step (or once and for all), except that a calculation
before the solver that accepts the previous end-of-step value sees exactly that, or the initial
content in the first step. -/
theorem C40_never_uncomputed (bs : List Builder) (fuel : Nat) (c : Collection)
    (hw : ∀ b ∈ bs, WellFormed b) (hf : bs.length < fuel) (h : build fuel bs = some (.ok c))
    (n : Nat) (o : Observation) (ho : o ∈ (run c n).2) (r : Read) (seen : Option Content)
    (hr : (r, seen) ∈ o.seen) (m : Name) (hm : r.use.ref.target = some m) :
    Computed m o.step seen ∨
      (r.use.ref.want = some .afterOrInitial ∧ o.stage = .before ∧
        seen = match o.step with | 0 => none | k + 1 => some ⟨m, .after, k⟩) := by
  rcases build_spec hw hf with ⟨n, h1, -⟩ | ⟨-, ⟨done, c', h1, h2, h3⟩ | ⟨done, rest, c', e, h1, -⟩⟩
  · rw [h1] at h; cases h
  · rw [h1] at h; cases h
    obtain ⟨pre, post, σ, h4, h5, h6⟩ := h2.seen n ho
    rw [h5, List.mem_filterMap] at hr
    obtain ⟨r', hr', hobs⟩ := hr
    unfold observe at hobs
    split at hobs
    · rename_i s hs
      cases hobs
      obtain ⟨p, h7, h8, h9⟩ := h2.ord _ pre o.op post h4 r hr' s hs
      rw [hm, Option.some_inj] at h8
      subst h8
      rcases h6 r s p h7 h9 with ⟨-, h10 | h10 | h10⟩ | ⟨-, -, h10⟩ | ⟨-, h10, h11, h12⟩
      · exact Or.inl (Or.inl h10)
      · exact Or.inl (Or.inr (Or.inl h10))
      · exact Or.inl (Or.inr (Or.inr (Or.inl h10)))
      · exact Or.inl (Or.inr (Or.inr (Or.inr h10)))
      · exact Or.inr ⟨h11, h10, h12⟩
    · cases hobs
  · rw [h1] at h; cases h

/-- For number references the value seen is also the one asked for.  Missing from the full claim:
integer references, for which it is false (`C40_requested_false`). -/
theorem C40_requested_partial (bs : List Builder) (fuel : Nat) (c : Collection)
    (hw : ∀ b ∈ bs, WellFormed b) (hf : bs.length < fuel) (h : build fuel bs = some (.ok c))
    (n : Nat) (o : Observation) (ho : o ∈ (run c n).2) (r : Read) (seen : Option Content)
    (hr : (r, seen) ∈ o.seen) (hst : r.use.ref.Strict) (m : Name) (hm : r.use.ref.target = some m)
    (w : Want) (hwant : r.use.ref.want = some w) : Expected w m o.stage o.step seen := by
  rcases build_spec hw hf with ⟨n, h1, -⟩ | ⟨-, ⟨done, c', h1, h2, h3⟩ | ⟨done, rest, c', e, h1, -⟩⟩
  · rw [h1] at h; cases h
  · rw [h1] at h; cases h
    obtain ⟨pre, post, σ, h4, h5, h6⟩ := h2.seen n ho
    rw [h5, List.mem_filterMap] at hr
    obtain ⟨r', hr', hobs⟩ := hr
    unfold observe at hobs
    split at hobs
    · rename_i s hs
      cases hobs
      have hop : o.op ∈ c.ops o.stage := by rw [h4]; simp
      obtain ⟨p, h7, h8, h9⟩ := h2.ord _ pre o.op post h4 r hr' s hs
      rw [hm, Option.some_inj] at h8
      subst h8
      obtain ⟨h13, h14⟩ := h2.strict _ o.op hop r hr' s hs
      have h14 := h14 hst
      rw [hwant] at h13 h14
      simp only [Option.some_inj] at h13 h14
      rcases h6 r s p h7 h9 with ⟨h10, h11⟩ | ⟨h10, h11, h12⟩ | ⟨h10, h11, h12, h15⟩
      · rw [h14.2 h10]; exact h11
      · rcases h13 h10 with ⟨rfl, -⟩ | rfl
        · exact ⟨h11, h12⟩
        · exact Or.inl ⟨h11, h12⟩
      · rw [hwant, Option.some_inj] at h12
        subst h12
        exact Or.inr ⟨h11, h15⟩
    · cases hobs
  · rw [h1] at h; cases h

/-- Each calculation is made exactly once per step (constants once at the start), and
each of its references to a parameter is observed. -/
theorem C40_every_step (bs : List Builder) (fuel : Nat) (c : Collection)
    (hw : ∀ b ∈ bs, WellFormed b) (hf : bs.length < fuel) (h : build fuel bs = some (.ok c)) :
    (run c 0).2.map Observation.op = c.ops .const ∧
    (∀ n, (run c (n + 1)).2.map Observation.op =
      (run c n).2.map Observation.op ++ (c.ops .simple ++ c.ops .before ++ c.ops .after)) ∧
    ∀ n, ∀ o ∈ (run c n).2, ∀ r ∈ o.op.reads, r.use.ref.target ≠ none → ∃ seen, (r, seen) ∈ o.seen := by
  rcases build_spec hw hf with ⟨n, h1, -⟩ | ⟨-, ⟨done, c', h1, h2, h3⟩ | ⟨done, rest, c', e, h1, -⟩⟩
  · rw [h1] at h; cases h
  · rw [h1] at h; cases h
    refine ⟨execAll_ops _ _ _ _, ?_, ?_⟩
    · intro n
      show ((run c n).2 ++ (stepParams c n (run c n).1).2).map Observation.op = _
      rw [List.map_append]
      congr 1
      simp only [stepParams, List.map_append, execAll_ops]
    · intro n o ho r hr ht
      obtain ⟨pre, post, σ, h4, h5, -⟩ := h2.seen n ho
      have hop : o.op ∈ c.ops o.stage := by rw [h4]; simp
      obtain ⟨m, hm⟩ := Option.ne_none_iff_exists'.1 ht
      obtain ⟨s, hs⟩ := resolve_target (h2.res _ _ hop r hr) hm
      refine ⟨σ s, ?_⟩
      rw [h5, List.mem_filterMap]
      exact ⟨r, hr, by simp [observe, hs]⟩
  · rw [h1] at h; cases h

/-- Three steps of the sample: parameter `4` sees the initial content and then each previous
step's value of `0`, and `0` sees this step's value of `1`. -/
example : (match build 6 sampleBuilders with
    | some (.ok c) => ((run c 2).2.filter (fun o => o.op.name = 4 ∨ o.op.name = 0)).map
        (fun o => (o.op.name, o.step, o.seen.map Prod.snd))
    | _ => []) =
    [(4, 0, [none, some ⟨1, .before, 0⟩]), (0, 0, [some ⟨1, .before, 0⟩]),
     (4, 1, [some ⟨0, .after, 0⟩, some ⟨1, .before, 1⟩]), (0, 1, [some ⟨1, .before, 1⟩])] := by decide

/-- The claim for all references is false: a calculation before the solver that asks for the
end-of-step value of a constant integer gets its value without an error. -/
theorem C40_requested_false :
    ¬ ∀ (bs : List Builder) (c : Collection), (∀ b ∈ bs, WellFormed b) →
      build (bs.length + 1) bs = some (.ok c) → ∀ n, ∀ o ∈ (run c n).2, ∀ r seen, (r, seen) ∈ o.seen →
      ∀ m w, r.use.ref.target = some m → r.use.ref.want = some w →
        Expected w m o.stage o.step seen := by
  intro h
  let bs : List Builder := [⟨0, .u64, [], .constant, fun _ => true⟩,
    ⟨1, .u64, [⟨.index 0 .after, .before⟩], .general true .none, fun _ => true⟩]
  obtain ⟨c, hc⟩ := (C38_succeeds_iff bs (bs.length + 1) (by decide) (Nat.lt_succ_self _)).2
    (by
      have h0 : Calculable bs 0 .u64 .const :=
        Calculable.intro ⟨0, .u64, [], .constant, fun _ => true⟩ (List.mem_cons_self ..)
          (fun _ => .u64) (fun _ => .const) (fun _ => .const) (by simp) (by simp) (by simp) rfl
      refine ⟨by decide, ?_⟩
      intro b hb
      rcases List.mem_cons.1 hb with rfl | hb
      · exact ⟨_, h0⟩
      · rw [List.mem_singleton] at hb
        subst hb
        refine ⟨.general true false, Calculable.intro
          ⟨1, .u64, [⟨.index 0 .after, .before⟩], .general true .none, fun _ => true⟩ (by simp [bs])
          (fun _ => .u64) (fun _ => .const) (fun _ => .const) ?_ ?_ ?_ rfl⟩
        · intro u hu m hm; rw [List.mem_singleton] at hu; subst hu; rfl
        · intro u hu m hm; rw [List.mem_singleton] at hu; subst hu; cases hm; exact h0
        · intro u hu; rw [List.mem_singleton] at hu; subst hu; rfl)
  have hc' : build 3 bs = some (.ok c) := hc
  have hops : c.ops = ((build 3 bs).bind (fun r => r.toOption)).elim (fun _ => []) Collection.ops := by
    rw [hc']; rfl
  have hobs : ((run c 1).2.map (fun o => (o.stage, o.step, o.seen))) =
      [(Stage.const, 0, []), (.before, 0, [(⟨⟨.index 0 .after, .before⟩, .slot ⟨.const, .u64, 0⟩⟩,
        some ⟨0, .const, 0⟩)])] := by
    have hrun : ∀ c' : Collection, c'.ops = c.ops → run c' 1 = run c 1 := by
      intro c' he
      simp only [run, setup, stepParams, he]
    rw [← hrun ⟨_, []⟩ hops.symm]
    decide
  have hmem : (Stage.before, 0, [((⟨⟨.index 0 .after, .before⟩, .slot ⟨.const, .u64, 0⟩⟩ : Read),
      some (⟨0, .const, 0⟩ : Content))]) ∈ (run c 1).2.map (fun o => (o.stage, o.step, o.seen)) := by
    rw [hobs]; simp
  obtain ⟨o, ho, he⟩ := List.mem_map.1 hmem
  simp only [Prod.mk.injEq] at he
  have := h bs c (by decide) hc 1 o ho ⟨⟨.index 0 .after, .before⟩, .slot ⟨.const, .u64, 0⟩⟩
    (some ⟨0, .const, 0⟩) (by rw [he.2.2]; simp) 0 .after rfl rfl
  rw [he.1] at this
  cases this.1

end Verif.Params
