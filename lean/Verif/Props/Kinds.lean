import Verif.Props.Params
import Verif.Lemmas.KindsRun

/-!
# C87: in a run every parameter has the value its type defines
-/

namespace Verif.Kinds

open Verif.Params

variable {W : Type}

/-- What a run reports: values `vs` and the state `w'` of the nodes are reported at the end of a run of `n + 1` steps
exactly when there are values for all parameters and steps that are those the types of the parameters define, and in which
the metrics mean `vs`. -/
theorem C87_run (e : Env) (ps : List (Param W)) (nodes solve : Nat → W → List Val → Option W) (fuel : Nat)
    (nodeRefs solveRefs : List Ref) (net : Network) (hf : ps.length < fuel)
    (hb : buildNetwork fuel (builders ps) nodeRefs solveRefs = some net) (w w' : W) (refs : List Ref) (n : Nat)
    (vs : List Val) :
    report (calcs e ps nodes solve) net w refs n = some (some (w', vs)) ↔
      ∃ h : Record W, Run e ps nodes solve nodeRefs solveRefs w (n + 1) h ∧ h.world (n + 1) = w' ∧
        Given (builders ps) h ⟨0, 0⟩ .after n (refs.map fun r => ⟨r, .after⟩) vs := by
  have hw : ∀ b ∈ builders ps, WellFormed b := by
    intro b hm
    obtain ⟨p, -, rfl⟩ := List.mem_map.1 hm
    exact wellFormed p
  have hf' : (builders ps).length < fuel := by simpa [builders] using hf
  have hn : (ps.map Param.name).Nodup := by
    have := (ready_of hw hf' hb).nodup
    rwa [builders_names] at this
  rw [C76_run (builders ps) fuel nodeRefs solveRefs net hw hf' hb]
  constructor
  · rintro ⟨H, ho, h1, h2⟩
    exact ⟨erase H, run_of_obeys hn ho, h1, (given_of_value rfl).1 h2⟩
  · rintro ⟨h, hr, h1, h2⟩
    obtain ⟨H, h3, h4, -, ho⟩ := obeys_of_run hn hr
    exact ⟨H, ho, by rw [h4, h1], (given_of_value h3).2 h2⟩

/-- A run fails exactly when there are no such values. -/
theorem C87_fails (e : Env) (ps : List (Param W)) (nodes solve : Nat → W → List Val → Option W) (fuel : Nat)
    (nodeRefs solveRefs : List Ref) (net : Network) (hf : ps.length < fuel)
    (hb : buildNetwork fuel (builders ps) nodeRefs solveRefs = some net) (w : W) (n : Nat) :
    report (calcs e ps nodes solve) net w [] n = some none ↔
      ¬ ∃ h : Record W, Run e ps nodes solve nodeRefs solveRefs w (n + 1) h := by
  have hw : ∀ b ∈ builders ps, WellFormed b := by
    intro b hm
    obtain ⟨p, -, rfl⟩ := List.mem_map.1 hm
    exact wellFormed p
  have hf' : (builders ps).length < fuel := by simpa [builders] using hf
  have hn : (ps.map Param.name).Nodup := by
    have := (ready_of hw hf' hb).nodup
    rwa [builders_names] at this
  rw [C76_fails (builders ps) fuel nodeRefs solveRefs net hw hf' hb]
  refine not_congr ⟨?_, ?_⟩
  · rintro ⟨H, ho⟩
    exact ⟨erase H, run_of_obeys hn ho⟩
  · rintro ⟨h, hr⟩
    obtain ⟨H, -, -, -, ho⟩ := obeys_of_run hn hr
    exact ⟨H, ho⟩

/-- The types determine all values: two histories agree on the states of the nodes and on what any metric means. -/
theorem C87_unique (e : Env) (ps : List (Param W)) (nodes solve : Nat → W → List Val → Option W) (fuel : Nat)
    (nodeRefs solveRefs : List Ref) (net : Network) (hf : ps.length < fuel)
    (hb : buildNetwork fuel (builders ps) nodeRefs solveRefs = some net) (w : W) (n : Nat) (h h' : Record W)
    (hr : Run e ps nodes solve nodeRefs solveRefs w n h) (hr' : Run e ps nodes solve nodeRefs solveRefs w n h') :
    (∀ t ≤ n, h.world t = h'.world t) ∧
    (∀ t < n, ∀ (refs : List Ref) (vs : List Val), Given (builders ps) h ⟨0, 0⟩ .after t (refs.map fun r => ⟨r, .after⟩) vs ↔
      Given (builders ps) h' ⟨0, 0⟩ .after t (refs.map fun r => ⟨r, .after⟩) vs) := by
  have hw : ∀ b ∈ builders ps, WellFormed b := by
    intro b hm
    obtain ⟨p, -, rfl⟩ := List.mem_map.1 hm
    exact wellFormed p
  have hf' : (builders ps).length < fuel := by simpa [builders] using hf
  have hn : (ps.map Param.name).Nodup := by
    have := (ready_of hw hf' hb).nodup
    rwa [builders_names] at this
  obtain ⟨H, h1, h2, -, ho⟩ := obeys_of_run hn hr
  obtain ⟨H', h1', h2', -, ho'⟩ := obeys_of_run hn hr'
  obtain ⟨h3, h4⟩ := C76_unique (builders ps) fuel nodeRefs solveRefs net hw hf' hb (calcs e ps nodes solve) w n H H' ho ho'
  refine ⟨fun t ht => by rw [← h2, ← h2', (h3 t ht).1], fun t ht refs vs => ?_⟩
  have h5 := h4 t ht refs vs
  rw [given_of_value h1, given_of_value h1'] at h5
  exact h5

/-- Every parameter of a network that builds is calculated in some way. -/
theorem takes_of_build (ps : List (Param W)) (fuel : Nat) (nodeRefs solveRefs : List Ref) (net : Network)
    (hf : ps.length < fuel) (hb : buildNetwork fuel (builders ps) nodeRefs solveRefs = some net) (p : Param W)
    (hp : p ∈ ps) : ∃ form, Takes (builders ps) (p.kind.builder p.name) form := by
  have hw : ∀ b ∈ builders ps, WellFormed b := by
    intro b hm
    obtain ⟨p, -, rfl⟩ := List.mem_map.1 hm
    exact wellFormed p
  obtain ⟨form, h1, -⟩ := C76_form (builders ps) fuel nodeRefs solveRefs net hw (by simpa [builders] using hf) hb _
    (List.mem_map.2 ⟨p, hp, rfl⟩)
  exact ⟨form, h1⟩

/-- Every run of a network with an offset parameter fails. -/
theorem C87_offset (e : Env) (ps : List (Param W)) (nodes solve : Nat → W → List Val → Option W) (fuel : Nat)
    (nodeRefs solveRefs : List Ref) (net : Network) (hf : ps.length < fuel)
    (hb : buildNetwork fuel (builders ps) nodeRefs solveRefs = some net) (w : W) (n : Nat) (name : Name) (s : Source W)
    (o : ℚ) (hp : ⟨name, .offset s o⟩ ∈ ps) :
    report (calcs e ps nodes solve) net w [] n = some none := by
  rw [C87_fails e ps nodes solve fuel nodeRefs solveRefs net hf hb]
  rintro ⟨h, hr⟩
  obtain ⟨form, ht⟩ := takes_of_build ps fuel nodeRefs solveRefs net hf hb _ hp
  have h1 := hr.params _ hp form ht
  obtain rfl := one_form rfl ht
  exact h1.1 rfl 0 (by omega)

/-- A run that is longer than a vector fails. -/
theorem C87_vector (e : Env) (ps : List (Param W)) (nodes solve : Nat → W → List Val → Option W) (fuel : Nat)
    (nodeRefs solveRefs : List Ref) (net : Network) (hf : ps.length < fuel)
    (hb : buildNetwork fuel (builders ps) nodeRefs solveRefs = some net) (w : W) (n : Nat) (name : Name) (values : List ℚ)
    (hp : ⟨name, .vector values⟩ ∈ ps) (hn : values.length ≤ n) :
    report (calcs e ps nodes solve) net w [] n = some none := by
  rw [C87_fails e ps nodes solve fuel nodeRefs solveRefs net hf hb]
  rintro ⟨h, hr⟩
  obtain ⟨form, ht⟩ := takes_of_build ps fuel nodeRefs solveRefs net hf hb _ hp
  have h1 := hr.params _ hp form ht
  obtain rfl := one_form rfl ht
  obtain ⟨h2, -⟩ := h1.1 rfl n (by omega)
  omega

/-- A delay of zero steps over a metric of the network makes every run fail. -/
theorem C87_delay_zero (e : Env) (ps : List (Param W)) (nodes solve : Nat → W → List Val → Option W) (fuel : Nat)
    (nodeRefs solveRefs : List Ref) (net : Network) (hf : ps.length < fuel)
    (hb : buildNetwork fuel (builders ps) nodeRefs solveRefs = some net) (w : W) (n : Nat) (name : Name)
    (f : W → Option Val) (init : ℚ) (hp : ⟨name, .delay (.node f) 0 init⟩ ∈ ps) :
    report (calcs e ps nodes solve) net w [] n = some none := by
  rw [C87_fails e ps nodes solve fuel nodeRefs solveRefs net hf hb]
  rintro ⟨h, hr⟩
  obtain ⟨form, ht⟩ := takes_of_build ps fuel nodeRefs solveRefs net hf hb _ hp
  obtain ⟨x, -, h2, -⟩ := hr.params _ hp form ht
  refine absurd (h2 ?_ (by omega)) (by omega)
  rintro rfl
  obtain ⟨shapes, h3, h4⟩ := ht
  cases h3 with
  | @cons _ sh _ shapes h5 h6 =>
    have hall : sh.isSimple = true := by
      by_contra hne
      simp [Kind.builder, Kind.style, formOf, hne] at h4
    rcases h5 with ⟨h7, -⟩ | ⟨-, rfl⟩ | ⟨b, -, h7, -⟩
    · cases h7
    · cases hall
    · cases h7

/-- A delay of a delay is a delay by the sum: a metric for the one shows what a metric for the other shows. -/
theorem C87_delays_add (e : Env) (ps : List (Param W)) (nodes solve : Nat → W → List Val → Option W) (fuel : Nat)
    (nodeRefs solveRefs : List Ref) (net : Network) (hf : ps.length < fuel)
    (hb : buildNetwork fuel (builders ps) nodeRefs solveRefs = some net) (w : W) (n : Nat) (h : Record W)
    (hr : Run e ps nodes solve nodeRefs solveRefs w n h) (first second both : Name) (s : Source W) (d d' : Nat) (init : ℚ)
    (h1 : ⟨first, .delay s d init⟩ ∈ ps) (h2 : ⟨second, .delay (.param (.value first .before)) d' init⟩ ∈ ps)
    (h3 : ⟨both, .delay s (d + d') init⟩ ∈ ps) (t : Nat) (ht : t < n) (a b : Val)
    (ha : Shows (builders ps) h .after t .after (.param (.value second .before)) a)
    (hb' : Shows (builders ps) h .after t .after (.param (.value both .before)) b) : a.num = b.num := by
  have hw : ∀ b ∈ builders ps, WellFormed b := by
    intro b hm
    obtain ⟨p, -, rfl⟩ := List.mem_map.1 hm
    exact wellFormed p
  have hnb : ((builders ps).map Builder.name).Nodup :=
    (ready_of hw (by simpa [builders] using hf) hb).nodup
  obtain ⟨f1, t1⟩ := takes_of_build ps fuel nodeRefs solveRefs net hf hb _ h1
  obtain ⟨f2, t2⟩ := takes_of_build ps fuel nodeRefs solveRefs net hf hb _ h2
  obtain ⟨f3, t3⟩ := takes_of_build ps fuel nodeRefs solveRefs net hf hb _ h3
  have forms : ∀ {m : Name} {k : Kind W} {f : Form}, k.style = .simpleOr .hook → Takes (builders ps) (k.builder m) f →
      f = .simple ∨ ∃ a, f = .general true a := by
    intro m k f hs ht
    rcases hook_forms hs ht with h | h
    · exact .inl h
    · exact .inr ⟨_, h⟩
  obtain ⟨x1, s1, -, v1⟩ := hr.params _ h1 f1 t1
  obtain ⟨x2, s2, -, v2⟩ := hr.params _ h2 f2 t2
  obtain ⟨x3, s3, -, v3⟩ := hr.params _ h3 f3 t3
  have ea := shows_value hnb (List.mem_map.2 ⟨_, h2, rfl⟩) t2 (forms rfl t2) ha
  have eb := shows_value hnb (List.mem_map.2 ⟨_, h3, rfl⟩) t3 (forms rfl t3) hb'
  subst ea eb
  by_cases hd : t < d'
  · exact (congrArg Val.num ((v2 t ht).1 hd)).trans (congrArg Val.num ((v3 t ht).1 (by omega))).symm
  · have e2 := congrArg Val.num ((v2 t ht).2 (by omega))
    have e4 := shows_value hnb (List.mem_map.2 ⟨_, h1, rfl⟩) t1 (forms rfl t1) (s2 (t - d') (by omega))
    rw [e4] at e2
    by_cases hd' : t - d' < d
    · have e5 := congrArg Val.num ((v1 (t - d') (by omega)).1 hd')
      exact e2.trans (e5.trans (congrArg Val.num ((v3 t ht).1 (by omega))).symm)
    · have e5 := congrArg Val.num ((v1 (t - d') (by omega)).2 (by omega))
      have e6 := congrArg Val.num ((v3 t ht).2 (by omega))
      have e7 : x1 (t - d' - d) = x3 (t - (d + d')) := by
        have : t - d' - d = t - (d + d') := by omega
        rw [this]
        have r1 := s1 (t - (d + d')) (by omega)
        have r3 := s3 (t - (d + d')) (by omega)
        cases s with
        | lit y => exact r1.trans r3.symm
        | node f =>
          obtain ⟨u, hu, hu'⟩ := r1
          obtain ⟨u', hv, hv'⟩ := r3
          rw [hu] at hv; cases hv
          rw [hu'] at hv'; exact Option.some.inj hv'
        | param r => exact Means.unique' hnb r1 r3
      refine e2.trans (e5.trans (Eq.trans ?_ e6.symm))
      rw [e7]

/-- A network in which a volume between two curves is declared builds only if its metrics are known before nodes are
looked at: none is of a node, and those of parameters are of parameters that are constant or need no state of nodes.
Its own value is then known as early. -/
theorem C87_between (ps : List (Param W)) (fuel : Nat) (nodeRefs solveRefs : List Ref) (net : Network)
    (hf : ps.length < fuel) (hb : buildNetwork fuel (builders ps) nodeRefs solveRefs = some net) (name : Name)
    (total upper lower : Source W) (hp : ⟨name, .volumeBetween total upper lower⟩ ∈ ps) :
    (∃ ty, Calculable (builders ps) name ty .simple) ∧
    ∀ s ∈ [total, upper, lower], (∀ f, s ≠ .node f) ∧
      ∀ m, s.ref.target = some m → ∃ ty kind, Calculable (builders ps) m ty kind ∧ (kind = .const ∨ kind = .simple) := by
  have hw : ∀ b ∈ builders ps, WellFormed b := by
    intro b hm
    obtain ⟨p, -, rfl⟩ := List.mem_map.1 hm
    exact wellFormed p
  have hm : (Kind.volumeBetween total upper lower).builder name ∈ builders ps := List.mem_map.2 ⟨_, hp, rfl⟩
  have hlen : (builders ps).length < fuel := by simpa [builders] using hf
  obtain ⟨hn, hc⟩ := (C38_succeeds_iff (builders ps) fuel hw hlen).1 (by
    unfold buildNetwork at hb
    split at hb
    · rename_i c hc; exact ⟨c, hc⟩
    · cases hb)
  obtain ⟨k, hk⟩ := hc _ hm
  generalize hnm : ((Kind.volumeBetween total upper lower).builder name).name = x at hk
  generalize hty : ((Kind.volumeBetween total upper lower).builder name).ty = y at hk
  have hk' := hk
  cases hk with
  | intro b hbm ty kind shape usable refs offers accepts =>
    have hbe := List.inj_on_of_nodup_map hn hbm hm hnm.symm
    subst hbe
    have hall : ∀ s ∈ [total, upper, lower], (shape ⟨s.ref, (Kind.volumeBetween total upper lower).phase⟩).isSimple = true := by
      intro s hs
      exact List.all_eq_true.1 accepts _ (List.mem_map.2 ⟨_, List.mem_map.2 ⟨s, hs, rfl⟩, rfl⟩)
    refine ⟨⟨((Kind.volumeBetween total upper lower).builder name).ty, ?_⟩, ?_⟩
    · have hform : (formOf ((Kind.volumeBetween total upper lower).builder name).style
          ((((Kind.volumeBetween total upper lower).builder name).uses).map shape)) = .simple := by
        have : ((((Kind.volumeBetween total upper lower).builder name).uses).map shape).all Shape.isSimple = true := accepts
        show (if _ then _ else _) = _
        rw [if_pos this]
      rw [hform] at hk'
      exact hk'
    · intro s hs
      have hu : (⟨s.ref, (Kind.volumeBetween total upper lower).phase⟩ : Use) ∈
          ((Kind.volumeBetween total upper lower).builder name).uses := List.mem_map.2 ⟨s, hs, rfl⟩
      have ho := offers _ hu
      have hi := hall s hs
      refine ⟨?_, ?_⟩
      · rintro f rfl
        simp only [Source.ref, Offers, Option.some.injEq] at ho
        simp only [Source.ref] at hi
        rw [← ho] at hi
        cases hi
      · intro m ht
        refine ⟨_, _, refs _ hu m ht, ?_⟩
        generalize shape _ = sh at ho hi
        generalize kind _ = kd at ho
        cases kd with
        | const => exact .inl rfl
        | simple => exact .inr rfl
        | general b a =>
          exfalso
          generalize s.ref = r at ho ht
          cases r <;> simp only [Offers, Offers.strict, Offers.lenient, Offers.general, Ref.target] at ho ht <;>
            first
            | (split at ho <;> split at ho <;> cases ho <;> cases hi)
            | cases ht

/-! ## A concrete network -/

/-- The step as a number, read from the state of the nodes, which counts steps and twice that. -/
def sampleLevel : Source Nat := .node fun w => some (ofF w)

/-- Parameters: `0` the level now, `1` the level delayed by two steps, `2` a window of two steps over the level, `3` whether
the level ever exceeded 3, `4` a delay of `1` by one step, `5` the level delayed by three steps, `6` the quotient of `0` and
`1` at the end of a step. -/
def samplePs : List (Param Nat) :=
  [⟨6, .division (.param (.value 0 .before)) (.param (.value 1 .before)) .after⟩,
   ⟨0, .aggregated [sampleLevel, .lit ⟨1, 0⟩] .sum .before⟩,
   ⟨4, .delay (.param (.value 1 .before)) 1 7⟩,
   ⟨1, .delay sampleLevel 2 7⟩,
   ⟨2, .rolling sampleLevel 2 0 1 .sum⟩,
   ⟨3, .threshold sampleLevel (.lit ⟨3, 0⟩) .greaterThan true⟩,
   ⟨5, .delay sampleLevel 3 7⟩]

/-- The level rises by two in a step and is drawn down to one when it reaches six. -/
def sampleCalcs : Calcs Val Inner Nat :=
  calcs ⟨fun _ => 2020, 10 ^ 300⟩ samplePs (fun _ w _ => some w) (fun _ w _ => some (if w ≥ 6 then 1 else w + 2))

def sampleReport (refs : List Ref) (n : Nat) : Option (Option (Option (Nat × List Val))) :=
  (buildNetwork 8 (builders samplePs) [] []).map fun net => report sampleCalcs net 0 refs n

/-- After five steps the levels at the ends of the steps were 2, 4, 6, 1 and 3. -/
example : sampleReport [.value 0 .before, .value 1 .before, .value 2 .before, .value 3 .before, .value 4 .before,
    .value 5 .before, .value 6 .after] 4 =
    some (some (some (3, [ofF 2, ofF 6, ofF 7, ofU 1, ofF 4, ofF 4, ofF (1 / 3)]))) := by decide +kernel

theorem sample_builds : ∃ net, buildNetwork 8 (builders samplePs) [] [] = some net :=
  Option.isSome_iff_exists.1 (by decide +kernel)

/-- The theorems apply to the sample. -/
example : ∃ h : Record Nat, Run ⟨fun _ => 2020, 10 ^ 300⟩ samplePs (fun _ w _ => some w)
      (fun _ w _ => some (if w ≥ 6 then 1 else w + 2)) [] [] 0 5 h ∧ h.world 5 = 3 ∧
      Given (builders samplePs) h ⟨0, 0⟩ .after 4 [⟨.value 4 .before, .after⟩, ⟨.value 5 .before, .after⟩] [ofF 4, ofF 4] := by
  obtain ⟨net, h⟩ := sample_builds
  refine (C87_run _ samplePs _ _ 8 [] [] net (by decide) h 0 3 [.value 4 .before, .value 5 .before] 4 [ofF 4, ofF 4]).1 ?_
  have : sampleReport [.value 4 .before, .value 5 .before] 4 = some (some (some (3, [ofF 4, ofF 4]))) := by
    decide +kernel
  rw [sampleReport, h] at this
  exact Option.some_inj.1 this

/-- A tenth to a quarter of a volume that a parameter gives; of the level, which is not known early enough, nothing
builds. -/
def samplePiece (total : Source Nat) : List (Param Nat) :=
  [⟨8, .volumeBetween total (.lit ⟨1 / 4, 0⟩) (.lit ⟨1 / 10, 0⟩)⟩, ⟨9, .constant 20⟩, ⟨0, .aggregated [sampleLevel] .sum .before⟩]

example : (∃ ty, Calculable (builders (samplePiece (.param (.value 9 .before)))) 8 ty .simple) ∧
    buildNetwork 8 (builders (samplePiece sampleLevel)) [] [] = none ∧
    buildNetwork 8 (builders (samplePiece (.param (.value 0 .before)))) [] [] = none := by
  obtain ⟨net, h⟩ : ∃ net, buildNetwork 8 (builders (samplePiece (.param (.value 9 .before)))) [] [] = some net :=
    Option.isSome_iff_exists.1 (by decide +kernel)
  refine ⟨(C87_between _ 8 [] [] net (by decide) h 8 _ _ _ (.head _)).1, ?_, ?_⟩ <;>
    exact Option.isNone_iff_eq_none.1 (by decide +kernel)

/-- A network with an offset parameter builds; the run fails. -/
example : ((buildNetwork 8 (builders (⟨7, .offset sampleLevel 1⟩ :: samplePs)) [] []).map fun net =>
    report (calcs ⟨fun _ => 2020, 10 ^ 300⟩ (⟨7, .offset sampleLevel 1⟩ :: samplePs) (fun _ w _ => some w)
      (fun _ w _ => some w)) net 0 [] 0) = some (some none) := by decide +kernel

/-- So does a network with a vector of one number, whose runs of two steps fail. -/
example : ((buildNetwork 8 (builders [(⟨7, .vector [5]⟩ : Param Nat)]) [] []).map fun net =>
    (report (calcs ⟨fun _ => 2020, 10 ^ 300⟩ [⟨7, .vector [5]⟩] (fun _ w _ => some w) (fun _ w _ => some w)) net 0 [] 0,
     report (calcs ⟨fun _ => 2020, 10 ^ 300⟩ [⟨7, .vector [5]⟩] (fun _ w _ => some w) (fun _ w _ => some w)) net 0 [] 1)) =
    some (some (some (0, [])), some none) := by decide +kernel

/-- And one with a delay of zero steps of the level. -/
example : ((buildNetwork 8 (builders [(⟨7, .delay sampleLevel 0 1⟩ : Param Nat)]) [] []).map fun net =>
    report (calcs ⟨fun _ => 2020, 10 ^ 300⟩ [⟨7, .delay sampleLevel 0 1⟩] (fun _ w _ => some w) (fun _ w _ => some w)) net 0
      [] 0) = some (some none) := by decide +kernel

end Verif.Kinds
