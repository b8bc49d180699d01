import Verif.Spec.Typed
import Verif.Lemmas.KindsRun
import Verif.Lemmas.WholeMain

/-! # Runs of networks with parameters of the types of the code -/

namespace Verif.Coupled

open Verif.State Verif.Solver Verif.Time Verif.Simulation
open Verif.Params (Ref History Given)

variable {T : Typed} {n : Nat} {cs : List Kinds.Val} {input : Nat → Inp} {record : Nat → Record}

theorem Typed.definitions (T : Typed) :
    T.whole.definitions = Kinds.calcs T.env T.ps (fun _ _ _ => none) (fun _ _ _ => none) := rfl

theorem Typed.Valid.whole (hv : T.Valid) : T.whole.Valid where
  params := by
    intro b hb
    obtain ⟨p, -, rfl⟩ := List.mem_map.1 hb
    exact Kinds.wellFormed p
  refs := hv.refs
  consts := hv.consts
  sims := hv.sims
  volumes := hv.volumes
  licences := hv.licences
  starts := hv.starts

theorem Typed.inputIs_iff {t : Nat} {vs : List Kinds.Val} {see : Seen} {inp : Inp} :
    T.whole.InputIs t vs see inp ↔ (inp.t = T.time t ∧ inp.solve = T.solver t) ∧
      ∀ id q, inp.metric id = some q ↔
        match T.source id with
        | .ref j key => key = none ∧ ∃ v, vs[j]? = some v ∧ q = v.num
        | .comp c => see c = some q := by
  have key : ∀ id q, (match T.whole.source id with
        | .ref j key => ∃ v, vs[j]? = some v ∧ T.whole.read key v = some q
        | .comp c => see c = some q) ↔
        match T.source id with
        | .ref j key => key = none ∧ ∃ v, vs[j]? = some v ∧ q = v.num
        | .comp c => see c = some q := by
    intro id q
    show (match T.source id with
        | .ref j key => ∃ v, vs[j]? = some v ∧ T.whole.read key v = some q
        | .comp c => see c = some q) ↔ _
    cases T.source id with
    | comp c => rfl
    | ref j key =>
      cases key with
      | none => simp [Typed.whole, eq_comm]
      | some k => simp [Typed.whole]
  constructor
  · rintro ⟨h1, h2, h3⟩
    exact ⟨⟨h1, h2⟩, fun id q => (h3 id q).trans (key id q)⟩
  · rintro ⟨⟨h1, h2⟩, h3⟩
    exact ⟨h1, h2, fun id q => (h3 id q).trans (key id q).symm⟩

theorem Typed.runs_of_whole (hn : (T.ps.map Kinds.Param.name).Nodup) {H : History Kinds.Val Kinds.Inner Seen}
    (hr : T.whole.Runs n H cs input record) : T.Runs n (Kinds.erase H) cs input record where
  params := by
    intro p hp form ht
    have hb : p.kind.builder p.name ∈ Kinds.builders T.ps := List.mem_map.2 ⟨p, hp, rfl⟩
    refine (Kinds.local_iff (e := T.env) (nodes := fun _ _ _ => none) (solve := fun _ _ _ => none) (by rwa [Kinds.builders_names])
      (Kinds.kindOf_of_mem hn hp) ht).2 ⟨fun t => H.start t p.name, fun t => H.held t p.name, ?_, fun t hlt => ⟨?_, ?_⟩⟩
    · exact (Kinds.const_congr rfl fun _ => rfl).1 (hr.const _ hb form ht)
    · exact (Kinds.before_congr rfl (fun _ => rfl) (fun _ => rfl) rfl t).1 (hr.before t hlt _ hb form ht)
    · exact (Kinds.after_congr rfl (fun _ => rfl) (fun _ => rfl) rfl t).1 (hr.after t hlt _ hb form ht)
  consts := (Kinds.given_of_value rfl).1 hr.consts
  times := fun t hlt => by
    obtain ⟨vs, -, h2⟩ := hr.inputs t hlt
    exact (Typed.inputIs_iff.1 h2).1
  metrics := fun t hlt => by
    obtain ⟨vs, h1, h2⟩ := hr.inputs t hlt
    exact ⟨vs, (Kinds.given_of_value rfl).1 h1, (Typed.inputIs_iff.1 h2).2⟩
  run := hr.run
  ready := hr.ready
  world := hr.world

theorem Typed.whole_of_runs (hn : (T.ps.map Kinds.Param.name).Nodup) {h : Kinds.Record Seen} (hr : T.Runs n h cs input record) :
    ∃ H : History Kinds.Val Kinds.Inner Seen, H.value = h.value ∧ H.world = h.world ∧ H.ready = h.ready ∧
      T.whole.Runs n H cs input record := by
  have hn' : ((Kinds.builders T.ps).map Params.Builder.name).Nodup := by rwa [Kinds.builders_names]
  have hex : ∀ m : Params.Name, ∃ st hl : Nat → Kinds.Inner, ∀ p ∈ T.ps, p.name = m → ∀ form,
      Params.Takes (Kinds.builders T.ps) (p.kind.builder p.name) form →
      Kinds.Equations (Kinds.builders T.ps) T.whole.definitions h n (p.kind.builder p.name) form st hl := by
    intro m
    by_cases hm : ∃ p ∈ T.ps, p.name = m ∧ ∃ form, Params.Takes (Kinds.builders T.ps) (p.kind.builder p.name) form
    · obtain ⟨p, hp, rfl, form, ht⟩ := hm
      obtain ⟨st, hl, h1⟩ := (Kinds.local_iff (e := T.env) (nodes := fun _ _ _ => none) (solve := fun _ _ _ => none) hn'
        (Kinds.kindOf_of_mem hn hp) ht).1 (hr.params p hp form ht)
      refine ⟨st, hl, fun q hq he form' ht' => ?_⟩
      obtain rfl : q = p := List.inj_on_of_nodup_map hn hq hp he
      obtain rfl := ht.unique hn' ht'
      exact h1
    · refine ⟨fun _ => .nothing, fun _ => .nothing, fun p hp he form ht => ?_⟩
      exact absurd ⟨p, hp, he, form, ht⟩ hm
  choose st hl hex using hex
  refine ⟨⟨h.value, fun t m => st m t, fun t m => hl m t, h.world, h.ready⟩, rfl, rfl, rfl, ?_, ?_, ?_, ?_, ?_, hr.run, hr.ready,
    hr.world⟩
  · intro b hb form ht
    obtain ⟨p, hp, rfl⟩ := List.mem_map.1 hb
    exact (Kinds.const_congr rfl fun _ => rfl).1 (hex p.name p hp rfl form ht).1
  · intro t hlt b hb form ht
    obtain ⟨p, hp, rfl⟩ := List.mem_map.1 hb
    exact (Kinds.before_congr rfl (fun _ => rfl) (fun _ => rfl) rfl t).1 ((hex p.name p hp rfl form ht).2 t hlt).1
  · intro t hlt b hb form ht
    obtain ⟨p, hp, rfl⟩ := List.mem_map.1 hb
    exact (Kinds.after_congr rfl (fun _ => rfl) (fun _ => rfl) rfl t).1 ((hex p.name p hp rfl form ht).2 t hlt).2
  · exact (Kinds.given_of_value rfl).1 hr.consts
  · intro t hlt
    obtain ⟨vs, h1, h2⟩ := hr.metrics t hlt
    exact ⟨vs, (Kinds.given_of_value rfl).1 h1, Typed.inputIs_iff.2 ⟨hr.times t hlt, h2⟩⟩

theorem Typed.nodup {net : Params.Network} (hv : T.Valid) (hb : T.whole.build = some net) : (T.ps.map Kinds.Param.name).Nodup := by
  have := (Params.ready_of hv.whole.params (fuel := T.whole.params.length + 1) (by omega) hb).nodup
  rwa [show T.whole.params = Kinds.builders T.ps from rfl, Kinds.builders_names] at this

/-- What a metric for the index of a parameter from before the solver shows. -/
theorem shows_index {bs : List Params.Builder} (hn : (bs.map Params.Builder.name).Nodup) {h : Kinds.Record Seen} {b : Params.Builder}
    (hb : b ∈ bs) {form : Params.Form} (ht : Params.Takes bs b form) (hf : form = .simple ∨ ∃ a, form = .general true a)
    {stage : Params.Stage} {t : Nat} {phase : Params.Phase} {v : Kinds.Val}
    (hs : Kinds.Shows bs h stage t phase (.param (.index b.name .before)) v) : v = Kinds.early h b.name form t := by
  obtain ⟨m, sh, h1, ⟨b', hb', h2, -, kd, h3, h4⟩, rfl⟩ := hs
  simp only [Ref.target, Option.some_inj] at h1 h2
  subst h1
  obtain rfl : b = b' := List.inj_on_of_nodup_map hn hb hb' h2
  obtain ⟨form', h5, rfl⟩ := Kinds.takes_of_calculable hn hb h3
  obtain rfl := ht.unique hn h5
  rcases hf with rfl | ⟨a, rfl⟩
  · simp only [Params.Offers, Params.Offers.lenient, Params.Form.kind, Option.some_inj] at h4
    subst h4
    rfl
  · simp only [Params.Offers, Params.Offers.lenient, Params.Offers.general, Params.Form.kind, if_true, Option.some_inj] at h4
    subst h4
    rfl

/-- What a metric of a component shows. -/
theorem shows_component {bs : List Params.Builder} {h : Kinds.Record Seen} {stage : Params.Stage} {t : Nat} {phase : Params.Phase}
    {c : Comp} {v : Kinds.Val} : Kinds.Shows bs h stage t phase (component c) v ↔
      ∃ w q, Kinds.visible h stage t = some w ∧ w c = some q ∧ v = Kinds.ofF q := by
  simp only [component, Kinds.Shows, Option.map_eq_some_iff]
  constructor
  · rintro ⟨w, h1, q, h2, rfl⟩; exact ⟨w, q, h1, h2, rfl⟩
  · rintro ⟨w, q, h1, h2, rfl⟩; exact ⟨w, h1, q, h2, rfl⟩

/-- A metric of a node that refers to a parameter. -/
theorem Typed.Runs.refers {net : Params.Network} {h : Kinds.Record Seen} (hv : T.Valid) (hb : T.whole.build = some net)
    (hr : T.Runs n h cs input record) {t : Nat} (ht : t < n) {m : Option Metric} {p : Kinds.Param Seen} (hp : p ∈ T.ps)
    (hm : T.RefersTo m p.name) {form : Params.Form} (hf : Params.Takes (Kinds.builders T.ps) (p.kind.builder p.name) form)
    (he : form = .simple ∨ ∃ a, form = .general true a) {d u : ℚ} (hu : ValueIs (input t).metric m d u) :
    u = (Kinds.early h p.name form t).num := by
  obtain ⟨id, j, rfl, h2, h3⟩ := hm
  obtain ⟨vs, h4, h5⟩ := hr.metrics t ht
  have h6 := (h5 id u).1 hu
  rw [h2] at h6
  obtain ⟨-, v, h7, rfl⟩ := h6
  have hn := Typed.nodup hv hb
  rw [given_all (fun r hr => hv.refs r (List.mem_append_right _ hr))] at h4
  have h8 := List.forall₂_iff_get.1 h4
  obtain ⟨hj, hj'⟩ := List.getElem?_eq_some_iff.1 h7
  obtain ⟨hk, hk'⟩ := List.getElem?_eq_some_iff.1 h3
  have h9 := h8.2 j (by simpa [uses] using hk) hj
  simp only [uses, List.get_eq_getElem, List.getElem_map, hk', hj'] at h9
  have hn' : ((Kinds.builders T.ps).map Params.Builder.name).Nodup := by rwa [Kinds.builders_names]
  rw [Kinds.shows_value (bs := Kinds.builders T.ps) (b := p.kind.builder p.name) hn' (List.mem_map.2 ⟨p, hp, rfl⟩) hf he h9]
  rfl

end Verif.Coupled
