import Verif.Lemmas.KindsMain
import Verif.Props.ParamRun

/-!
# Histories that obey the code are the runs that the types define
-/

namespace Verif.Kinds

open Verif.Params

variable {W : Type} {e : Env} {ps : List (Param W)} {nodes solve : Nat → W → List Val → Option W}

theorem builders_names (ps : List (Param W)) : (builders ps).map Builder.name = ps.map Param.name := by
  simp [builders, Kind.builder, Function.comp_def]

theorem kindOf_of_mem (hn : (ps.map Param.name).Nodup) {p : Param W} (hp : p ∈ ps) : kindOf ps p.name = some p.kind := by
  unfold kindOf
  have : ps.find? (fun q => q.name = p.name) = some p := by
    rw [List.find?_eq_some_iff_getElem]
    obtain ⟨i, hi, rfl⟩ := List.getElem_of_mem hp
    refine ⟨by simp, i, hi, rfl, fun j hj => ?_⟩
    simp only [Bool.not_eq_eq_eq_not, Bool.not_true, decide_eq_false_iff_not]
    intro he
    have := (List.Nodup.getElem_inj_iff hn (i := j) (j := i) (hi := by simp; omega) (hj := by simpa using hi)).1 (by simpa using he)
    omega
  rw [this]; rfl

/-- The references of all types are well formed. -/
theorem wellFormed (p : Param W) : WellFormed (p.kind.builder p.name) := by
  obtain ⟨name, k⟩ := p
  cases k with
  | aggregated ms f ph =>
    by_cases hp : ph = .before
    · subst hp
      intro u hu
      obtain ⟨s, -, rfl⟩ := List.mem_map.1 hu
      rfl
    · cases ph <;> first | exact absurd rfl hp | exact trivial
  | aggregatedIndex ms f ph =>
    by_cases hp : ph = .before
    · subst hp
      intro u hu
      obtain ⟨s, -, rfl⟩ := List.mem_map.1 hu
      rfl
    · cases ph <;> first | exact absurd rfl hp | exact trivial
  | division a b ph => cases ph <;> exact trivial
  | constant => rfl
  | scheduled => rfl
  | _ => exact trivial

/-- A parameter that can be calculated is calculated in some way. -/
theorem takes_of_calculable {bs : List Builder} (hn : (bs.map Builder.name).Nodup) {b : Builder} (hb : b ∈ bs) {ty : Ty}
    {kd : Params.Kind} (hc : Calculable bs b.name ty kd) : ∃ form, Takes bs b form ∧ kd = form.kind := by
  generalize hm : b.name = m at hc
  obtain ⟨b', hb', ty, kind, shape, h1, h2, h3, -⟩ := hc
  obtain rfl : b = b' := List.inj_on_of_nodup_map hn hb hb' hm
  refine ⟨_, ⟨b.uses.map shape, ?_, rfl⟩, rfl⟩
  rw [List.forall₂_map_right_iff, List.forall₂_same]
  intro u hu
  cases ht : u.ref.target with
  | none =>
    have h4 := h3 u hu
    cases hr : u.ref <;> rw [hr] at ht h4 <;> simp_all [Ref.target, Offers]
  | some m =>
    refine .inr (.inr ?_)
    have h5 := h2 u hu m ht
    obtain ⟨b2, hb2, h6, h7⟩ := h5.mem
    exact ⟨b2, hb2, by rw [ht, h6], h7 ▸ h1 u hu m ht, kind u, by rw [h6, h7]; exact h5, h3 u hu⟩

/-- What a metric for the value of a parameter from before the solver shows. -/
theorem shows_value {bs : List Builder} (hn : (bs.map Builder.name).Nodup) {h : Record W} {b : Builder} (hb : b ∈ bs)
    {form : Form} (ht : Takes bs b form) (hf : form = .simple ∨ ∃ a, form = .general true a) {stage : Stage} {t : Nat}
    {phase : Phase} {v : Val} (hs : Shows bs h stage t phase (.param (.value b.name .before)) v) :
    v = early h b.name form t := by
  obtain ⟨m, sh, h1, ⟨b', hb', h2, -, kd, h3, h4⟩, rfl⟩ := hs
  simp only [Ref.target, Option.some_inj] at h1 h2
  subst h1
  obtain rfl : b = b' := List.inj_on_of_nodup_map hn hb hb' h2
  obtain ⟨form', h5, rfl⟩ := takes_of_calculable hn hb h3
  obtain rfl := ht.unique hn h5
  rcases hf with rfl | ⟨a, rfl⟩
  · simp only [Offers, Offers.strict, Form.kind, if_true, Option.some_inj] at h4
    subst h4
    rfl
  · simp only [Offers, Offers.strict, Offers.general, Form.kind, if_true, Option.some_inj] at h4
    subst h4
    rfl

/-- Forget the internal states. -/
def erase (H : History Val Inner W) : Record W where
  value := H.value
  start := fun _ _ => ()
  held := fun _ _ => ()
  world := H.world
  ready := H.ready

section

variable {bs : List Builder} {k : Calcs Val Inner W} {G G' : History Val Inner W} {b : Builder} {form : Form}

theorem const_congr (hv : G.value = G'.value) (hs : ∀ t, G.start t b.name = G'.start t b.name) :
    ConstHolds bs k G b form ↔ ConstHolds bs k G' b form := by
  unfold ConstHolds
  simp only [given_of_value hv, hv, hs]

theorem before_congr (hv : G.value = G'.value) (hs : ∀ t, G.start t b.name = G'.start t b.name)
    (hh : ∀ t, G.held t b.name = G'.held t b.name) (hr : G.ready = G'.ready) (t : Nat) :
    BeforeHolds bs k G t b form ↔ BeforeHolds bs k G' t b form := by
  unfold BeforeHolds
  simp only [given_of_value hv, hv, hs, hh, hr]

theorem after_congr (hv : G.value = G'.value) (hs : ∀ t, G.start t b.name = G'.start t b.name)
    (hh : ∀ t, G.held t b.name = G'.held t b.name) (hr : G.world = G'.world) (t : Nat) :
    AfterHolds bs k G t b form ↔ AfterHolds bs k G' t b form := by
  unfold AfterHolds
  simp only [given_of_value hv, hv, hs, hh, hr]

end

theorem run_of_obeys (hn : (ps.map Param.name).Nodup) {nodeRefs solveRefs : List Ref} {w : W} {n : Nat}
    {H : History Val Inner W} (ho : Obeys (builders ps) nodeRefs solveRefs (calcs e ps nodes solve) w n H) :
    Run e ps nodes solve nodeRefs solveRefs w n (erase H) where
  world := ho.world
  params := by
    intro p hp form ht
    have hb : p.kind.builder p.name ∈ builders ps := List.mem_map.2 ⟨p, hp, rfl⟩
    refine (local_iff (nodes := nodes) (solve := solve) (by rwa [builders_names]) (kindOf_of_mem hn hp) ht).2
      ⟨fun t => H.start t p.name, fun t => H.held t p.name, ?_, fun t hlt => ⟨?_, ?_⟩⟩
    · exact (const_congr rfl fun _ => rfl).1 (ho.const _ hb form ht)
    · exact (before_congr rfl (fun _ => rfl) (fun _ => rfl) rfl t).1 (ho.before t hlt _ hb form ht)
    · exact (after_congr rfl (fun _ => rfl) (fun _ => rfl) rfl t).1 (ho.after t hlt _ hb form ht)
  nodes := fun t hlt => by
    obtain ⟨vs, h1, h2⟩ := ho.nodes t hlt
    exact ⟨vs, (given_of_value rfl).1 h1, h2⟩
  solve := fun t hlt => by
    obtain ⟨vs, h1, h2⟩ := ho.solve t hlt
    exact ⟨vs, (given_of_value rfl).1 h1, h2⟩

theorem obeys_of_run (hn : (ps.map Param.name).Nodup) {nodeRefs solveRefs : List Ref} {w : W} {n : Nat} {h : Record W}
    (hr : Run e ps nodes solve nodeRefs solveRefs w n h) :
    ∃ H : History Val Inner W, H.value = h.value ∧ H.world = h.world ∧ H.ready = h.ready ∧
      Obeys (builders ps) nodeRefs solveRefs (calcs e ps nodes solve) w n H := by
  have hn' : ((builders ps).map Builder.name).Nodup := by rwa [builders_names]
  have hex : ∀ m : Name, ∃ st hl : Nat → Inner, ∀ p ∈ ps, p.name = m → ∀ form,
      Takes (builders ps) (p.kind.builder p.name) form →
      Equations (builders ps) (calcs e ps nodes solve) h n (p.kind.builder p.name) form st hl := by
    intro m
    by_cases hm : ∃ p ∈ ps, p.name = m ∧ ∃ form, Takes (builders ps) (p.kind.builder p.name) form
    · obtain ⟨p, hp, rfl, form, ht⟩ := hm
      obtain ⟨st, hl, h1⟩ := (local_iff (nodes := nodes) (solve := solve) hn' (kindOf_of_mem hn hp) ht).1
        (hr.params p hp form ht)
      refine ⟨st, hl, fun q hq he form' ht' => ?_⟩
      obtain rfl : q = p := List.inj_on_of_nodup_map hn hq hp he
      obtain rfl := ht.unique hn' ht'
      exact h1
    · refine ⟨fun _ => .nothing, fun _ => .nothing, fun p hp he form ht => ?_⟩
      exact absurd ⟨p, hp, he, form, ht⟩ hm
  choose st hl hex using hex
  refine ⟨⟨h.value, fun t m => st m t, fun t m => hl m t, h.world, h.ready⟩, rfl, rfl, rfl, hr.world, ?_, ?_, ?_, ?_, ?_⟩
  · intro b hb form ht
    obtain ⟨p, hp, rfl⟩ := List.mem_map.1 hb
    exact (const_congr rfl fun _ => rfl).1 (hex p.name p hp rfl form ht).1
  · intro t hlt b hb form ht
    obtain ⟨p, hp, rfl⟩ := List.mem_map.1 hb
    exact (before_congr rfl (fun _ => rfl) (fun _ => rfl) rfl t).1 ((hex p.name p hp rfl form ht).2 t hlt).1
  · intro t hlt b hb form ht
    obtain ⟨p, hp, rfl⟩ := List.mem_map.1 hb
    exact (after_congr rfl (fun _ => rfl) (fun _ => rfl) rfl t).1 ((hex p.name p hp rfl form ht).2 t hlt).2
  · intro t hlt
    obtain ⟨vs, h1, h2⟩ := hr.nodes t hlt
    exact ⟨vs, (given_of_value rfl).1 h1, h2⟩
  · intro t hlt
    obtain ⟨vs, h1, h2⟩ := hr.solve t hlt
    exact ⟨vs, (given_of_value rfl).1 h1, h2⟩

end Verif.Kinds
