import Verif.Props.Document
import Verif.Props.SchemaReports

/-!
# C99: piecewise storages in documents
-/

namespace Verif.EndToEnd

open Verif.State Verif.Solver Verif.Time Verif.Simulation
open Verif.Load (Story Side SNum SHolds)
open Verif.Schema (Frag Core UMetric Decl SNode received sent stored)

/-- The volume of the piecewise storage over a run: over all its stores together. -/
structure PieceCourse (D : Document) (E : Setting) (F : Frag) (C : Core) (n : Nat) (S : Story Area) (f : Nat → Nat → ℚ) (x : SNode)
    (b : Schema.PieceStoreN) (vol : Nat → ℚ) : Prop where
  /-- it starts as the document says, or full if that is more -/
  start : 0 < n → ∃ top cs, Means D (D.args E F C) S 0 b.maxVolume top ∧ List.Forall₂ (Means D (D.args E F C) S 0) (b.steps.map (·.curve)) cs ∧
    ∀ v, (v = match b.initial with | .proportional p => top * p | .absolute v => v) → 0 ≤ top → 0 ≤ v →
      List.Pairwise (· ≤ ·) (0 :: cs ++ [1]) → vol 0 = min v top
  /-- and changes by what the storage receives less what it sends -/
  change : ∀ t < n, vol (t + 1) = vol t + (E.time t).days * (received D.net F (f t) x.name - sent D.net F (f t) x.name)
  /-- within the values of its bounds -/
  within : ∀ t < n, ∃ top cs, Means D (D.args E F C) S t b.maxVolume top ∧
    List.Forall₂ (Means D (D.args E F C) S t) (b.steps.map (·.curve)) cs ∧ vol (t + 1) ≤ top ∧ (b.minVolume = none → 0 ≤ vol (t + 1)) ∧
    ∀ m, b.minVolume = some m → ∃ lo, Means D (D.args E F C) S t m lo ∧
      (0 ≤ lo → lo ≤ top → List.Pairwise (· ≤ ·) (0 :: cs ++ [1]) → lo ≤ vol (t + 1))
  /-- and the metric of the volume shows it -/
  shown : ∀ r, D.refs r = .node x.name (some .volume) ∨ D.refs r = .node x.name none → ∀ t < n, ∀ o q,
    (SNum (D.args E F C) S .early t o (.component r) q ↔ q = vol t) ∧
    (SNum (D.args E F C) S .late t o (.component r) q ↔ q = vol (t + 1))
  /-- and the metric of the proportional volume shows its share of the maximum of this step at the end of the step, but of the maximum
  of the step before until then -/
  share : ∀ r, D.refs r = .node x.name (some .proportionalVolume) → ∀ t < n, ∃ now before,
    Means D (D.args E F C) S t b.maxVolume now ∧ Means D (D.args E F C) S (t - 1) b.maxVolume before ∧ ∀ o q,
      (SNum (D.args E F C) S .early t o (.component r) q ↔ q = Coupled.share (vol t) before) ∧
      (SNum (D.args E F C) S .late t o (.component r) q ↔ q = Coupled.share (vol (t + 1)) now)

/-- The metrics of the piecewise storage are among those of the document. -/
def PiecesListed (D : Document) (b : Schema.PieceStoreN) : Prop :=
  ∀ id, .dyn id ∈ b.maxVolume :: b.minVolume.toList ++ b.steps.map (·.curve) → id < D.doc.uses.length

theorem begins_start {σ : Nat → Option ℚ} {d : Decl} {hi v s : ℚ} (hh : ValueIs σ d.data.maxVolume f64MAX hi) (hb : Begins σ hi d.initial v)
    (hs : d.startVolume σ = some s) : s = v := by
  unfold Schema.Decl.startVolume at hs
  replace hs : (do let iv ← d.initial; let r ← iv.read σ; return r.get hi : Option ℚ) = some s := by
    cases hm : d.data.maxVolume with
    | none => rw [hm] at hh; simp only [ValueIs] at hh; rw [hm] at hs; rw [hh]; exact hs
    | some m => rw [hm] at hh; simp only [ValueIs] at hh; simp only [hm, hh] at hs; exact hs
  cases hi' : d.initial with
  | none => rw [hi'] at hs; simp at hs
  | some i =>
    rw [hi'] at hs hb
    cases i with
    | absolute a =>
      simp [Schema.Initial.read, InitialVolume.get] at hs
      simp only [Begins] at hb
      rw [← hs, hb]
    | proportional p =>
      simp [Schema.Initial.read, InitialVolume.get] at hs
      simp only [Begins] at hb
      rw [← hs, hb]
    | distributedAbsolute a prior =>
      obtain ⟨below, h1, h2⟩ := hb
      simp only [ValueIs] at h1
      simp [Schema.Initial.read, h1, InitialVolume.get] at hs
      rw [← hs, h2]
    | distributedProportional total p prior =>
      obtain ⟨all, below, h0, h1, h2⟩ := hb
      simp only [ValueIs] at h0 h1
      simp [Schema.Initial.read, h0, h1, InitialVolume.get] at hs
      rw [← hs, h2]

theorem limited_eq {a b : ℚ} {lo hi : Option ℚ} {q : ℚ} (h : Kinds.Limited (a - b) lo hi q) : Schema.clampedDifference a b lo hi = q := by
  unfold Schema.clampedDifference
  unfold Kinds.Limited at h
  generalize a - b = d at h ⊢
  cases lo <;> cases hi <;> grind

/-- A metric shows one number before the allocation. -/
theorem shows_one {A : Load.Args Area} (hu : ∀ s table, A.series s = some table → (table.map Prod.fst).Nodup) {S : Story Area} {t : Nat}
    {o : Option String} {m : Load.SMetric} {p q : ℚ} (hp : SNum A S .early t o m p) (hq : SNum A S .early t o m q) : p = q := by
  have reads : ∀ {o r v w}, Load.Reads S .early t o r v → Load.Reads S .early t o r w → v = w := by
    intro o r v w hv hw
    have hv := hv.2
    have hw := hw.2
    cases h : r.ret.getD .before <;> rw [h] at hv hw
    · exact hv.trans hw.symm
    · exact hv.trans hw.symm
    · by_cases hs : S.settled o r.name
      · exact (hv.1 (.inr hs)).trans (hw.1 (.inr hs)).symm
      · have hv := hv.2 rfl hs
        have hw := hw.2 rfl hs
        cases t with
        | zero => exact (hv.1 rfl).trans (hw.1 rfl).symm
        | succ s => exact (hv.2 s rfl).trans (hw.2 s rfl).symm
  cases m with
  | literal v => exact Eq.trans (b := v) hp (Eq.symm hq)
  | table r => exact Option.some.inj (Eq.trans (Eq.symm hp) hq)
  | component c =>
    obtain ⟨f1, h1, hp⟩ := hp
    obtain ⟨f2, h2, hq⟩ := hq
    obtain rfl := Except.ok.inj (h1.symm.trans h2)
    cases f1 with
    | shown f => exact Option.some.inj (Eq.trans (Eq.symm hp) hq)
    | deficit x f l =>
      have hp := hp.2 rfl
      have hq := hq.2 rfl
      cases t with
      | zero => exact (hp.1 rfl).trans (hq.1 rfl).symm
      | succ s =>
        obtain ⟨x1, y1, e1, e2, e3⟩ := hp.2 s rfl
        obtain ⟨x2, y2, g1, g2, g3⟩ := hq.2 s rfl
        rw [e3, g3, Option.some.inj (e1.symm.trans g1), Option.some.inj (e2.symm.trans g2)]
  | series s c =>
    obtain ⟨table, h1, hp⟩ := hp
    obtain ⟨table', h2, hq⟩ := hq
    obtain rfl := Option.some.inj (h1.symm.trans h2)
    cases c with
    | none =>
      obtain ⟨c, rfl, hp⟩ := hp
      obtain ⟨c', hc, hq⟩ := hq
      obtain rfl : c = c' := (List.cons.inj hc).1
      exact Option.some.inj (hp.symm.trans hq)
    | some c =>
      cases c with
      | column name =>
        obtain ⟨v, hv, hp⟩ := hp
        obtain ⟨w, hw, hq⟩ := hq
        have := List.inj_on_of_nodup_map (hu s table h1) hv hw rfl
        simp only [Prod.mk.injEq, true_and] at this
        subst this
        exact Option.some.inj (hp.symm.trans hq)
      | scenario g =>
        obtain ⟨i, c, e1, e2, hp⟩ := hp
        obtain ⟨j, d, g1, g2, hq⟩ := hq
        obtain rfl := Option.some.inj (e1.symm.trans g1)
        obtain rfl := Option.some.inj (e2.symm.trans g2)
        exact Option.some.inj (hp.symm.trans hq)
  | param r =>
    obtain ⟨v, hv, rfl⟩ := hp
    obtain ⟨w, hw, rfl⟩ := hq
    rw [reads hv hw]
  | localParam r =>
    obtain ⟨-, v, hv, rfl⟩ := hp
    obtain ⟨-, w, hw, rfl⟩ := hq
    rw [reads hv hw]

section
variable {D : Document} {E : Setting} {F : Frag} {C : Core} (h : Schema.Built D.numbers D.net F C) {n : Nat} {S : Story Area}
  {f : Nat → Nat → ℚ} {st : Nat → StepState} (H : Happens D E F C n S f st) {x : SNode} (hx : x ∈ D.net.nodes)

include H in
theorem means {t : Nat} (ht : t < n) {m : Metric} {q : ℚ} (hv : m.get (st t).metric = some q) : Means D (D.args E F C) S t m q :=
  valued H ht (m := some m) (d := 0) hv

include H in
theorem has_value {t : Nat} (ht : t < n) {m : Metric} (hl : ∀ id, m = .dyn id → id < D.doc.uses.length) : ∃ q, m.get (st t).metric = some q := by
  cases m with
  | const v => exact ⟨v, rfl⟩
  | dyn id => exact H.present t ht id (hl id rfl)

include H in
theorem have_values {t : Nat} (ht : t < n) {ms : List Metric} (hl : ∀ id, .dyn id ∈ ms → id < D.doc.uses.length) :
    ∃ qs, ms.map (Metric.get (st t).metric) = qs.map some ∧ List.Forall₂ (Means D (D.args E F C) S t) ms qs := by
  induction ms with
  | nil => exact ⟨[], rfl, .nil⟩
  | cons m ms ih =>
    obtain ⟨qs, h1, h2⟩ := ih fun id hid => hl id (List.mem_cons_of_mem _ hid)
    obtain ⟨q, hq⟩ := has_value H ht (m := m) fun id e => hl id (by rw [e]; exact List.mem_cons_self)
    exact ⟨q :: qs, by rw [List.map_cons, List.map_cons, h1, hq], .cons (means H ht hq) h2⟩

section
variable (hu : ∀ s table, E.series s = some table → (table.map Prod.fst).Nodup)
include H hu

theorem same_value {t : Nat} (ht : t < n) {owner : String} {m : Metric} {m' : Load.SMetric} (hs : SameAs D owner m m') {q : ℚ}
    (hq : SNum (D.args E F C) S .early t (some owner) m' q) : m.get (st t).metric = some q := by
  cases m with
  | const v =>
    simp only [SameAs] at hs
    subst hs
    rw [show q = v from hq]
    rfl
  | dyn id =>
    simp only [SameAs] at hs
    obtain ⟨p, hp⟩ := H.present t ht id (List.getElem?_eq_some_iff.1 hs).1
    obtain ⟨o, m, h1, h2⟩ := H.values t ht id p hp
    rw [hs, Option.some.injEq, Prod.mk.injEq] at h1
    obtain ⟨rfl, rfl⟩ := h1
    rw [← shows_one hu h2 hq]
    exact hp

theorem same_or {t : Nat} (ht : t < n) {owner : String} {d : ℚ} {m : Option Metric} {m' : Load.SMetric} (hs : SameOr D owner d m m') {q : ℚ}
    (hq : SNum (D.args E F C) S .early t (some owner) m' q) : ∃ o, Schema.optional (st t).metric m = some o ∧ o.getD d = q := by
  cases m with
  | none =>
    simp only [SameOr] at hs
    subst hs
    exact ⟨none, rfl, (show q = d from hq).symm⟩
  | some m => exact ⟨some q, by rw [Schema.optional, same_value H hu ht hs hq]; rfl, rfl⟩

theorem same_all {t : Nat} (ht : t < n) {owner : String} {ms : List Metric} {ms' : List Load.SMetric} (hs : List.Forall₂ (SameAs D owner) ms ms')
    {qs : List ℚ} (hq : List.Forall₂ (SNum (D.args E F C) S .early t (some owner)) ms' qs) : ms.map (Metric.get (st t).metric) = qs.map some := by
  induction hs generalizing qs with
  | nil => cases hq; rfl
  | cons e _ ih =>
    cases hq with
    | cons e' hq => rw [List.map_cons, List.map_cons, same_value H hu ht e e', ih hq]

/-- **C99 (parameters of nodes).** If the parameters that nodes make for themselves are described by the document, they have in every step the values by
which they are defined. -/
theorem C99_made (hd : Declares D F) (t : Nat) (ht : t < n) : Schema.Computed D.numbers F (st t).metric := by
  rintro ⟨owner, p, pd⟩ hq v hv
  obtain ⟨k, hk, hdesc, huse⟩ := hd _ hq
  simp only at hk hdesc huse hv ⊢
  have hP := H.params _ hk
  obtain ⟨q, hq⟩ := H.present t ht _ (List.getElem?_eq_some_iff.1 huse).1
  obtain ⟨o, m, h1, h2⟩ := H.values t ht _ q hq
  rw [huse, Option.some.injEq, Prod.mk.injEq] at h1
  obtain ⟨rfl, rfl⟩ := h1
  obtain ⟨-, w, ⟨-, hw⟩, rfl⟩ := h2
  simp only [Option.getD_none] at hw
  rw [hq, hw]
  cases pd with
  | volumeBetween total upper lower =>
    obtain ⟨t', u', l', rfl, g1, g2, g3⟩ := hdesc
    obtain ⟨x, u, l, e1, e2, e3, e4⟩ := hP.1 (by simp) t ht
    obtain ⟨ou, i1, i2⟩ := same_or H hu ht g2 e2
    obtain ⟨ol, i3, i4⟩ := same_or H hu ht g3 e3
    simp only [Schema.PDef.value, same_value H hu ht g1 e1, i1, i3, Option.some.injEq] at hv
    rw [← hv, e4.1, ← i2, ← i4, ← mul_sub]
    rfl
  | sum ms =>
    obtain ⟨ms', rfl, g⟩ := hdesc
    obtain ⟨qs, q', e1, e2, e3⟩ := hP.1 (by simp) t ht
    simp only [Schema.PDef.value, Schema.mapM_values _ _ _ (same_all H hu ht g e1), Option.some.injEq] at hv
    rw [← hv, e3.1]
    exact congrArg some e2
  | product ms =>
    obtain ⟨ms', rfl, g⟩ := hdesc
    obtain ⟨qs, q', e1, e2, e3⟩ := hP.1 (by simp) t ht
    simp only [Schema.PDef.value, Schema.mapM_values _ _ _ (same_all H hu ht g e1), Option.some.injEq] at hv
    rw [← hv, e3.1]
    exact congrArg some e2
  | difference a b lo hi =>
    obtain ⟨a', b', lo', hi', l, u, rfl, rfl, rfl, g1, g2, g3, g4⟩ := hdesc
    obtain ⟨x, y, l', u', q', e1, e2, e3, e4, e5, e6⟩ := hP.1 (by simp) t ht
    simp only [Schema.PDef.value, Schema.optional, same_value H hu ht g1 e1, same_value H hu ht g2 e2, same_value H hu ht g3 e3,
      same_value H hu ht g4 e4, Option.some.injEq] at hv
    rw [← hv, e6.1, ← limited_eq e5]
    rfl
  | _ => cases hv

end

include h hx

/-- The core nodes of a piecewise storage: its stores. -/
theorem pieces_core {b : Schema.PieceStoreN} (hb : x.body = .pieceStore b) : ∀ d ∈ Schema.coreNodes F x.name, d ∈ F.nodes ∧ d.kind = .storage := by
  intro d hd
  obtain ⟨G, hG⟩ := Schema.frag_of_mem h.compiled hx
  rw [Schema.coreNodes_eq h hx hG] at hd
  refine ⟨Schema.mem_nodes h.compiled hx hG hd, ?_⟩
  unfold SNode.frag at hG
  simp only [hb, Except.ok.injEq, Schema.PieceStoreN.frag] at hG
  subst hG
  simp only [Frag.add, List.append_nil] at hd
  obtain ⟨j, _, hj⟩ := Schema.forall₂_mem' (Schema.pieceLoop_all D.numbers x.name b b.steps 0 none []) hd
  exact hj.2.1

theorem pieces_flow {b : Schema.PieceStoreN} (hb : x.body = .pieceStore b) (t : Nat) :
    ((Schema.coreNodes F x.name).map (Schema.coreFlow F (f t))).sum = received D.net F (f t) x.name - sent D.net F (f t) x.name := by
  rw [← Schema.pieces_balance h hx hb, ← Schema.core_names h hx hb, List.map_map]
  congr 1
  refine List.map_congr_left fun d hd => ?_
  simp only [Schema.coreFlow, (pieces_core h hx hb d hd).2, Function.comp_apply]

theorem pieces_decl {b : Schema.PieceStoreN} (hb : x.body = .pieceStore b) :
    (⟨(x.name, some "agg-store"), (Schema.coreNodes F x.name).map (·.name)⟩ : Schema.StoreDecl) ∈ F.stores := by
  rw [Schema.core_names h hx hb]
  obtain ⟨Gs, Vs, Es, hparts⟩ := Schema.compile_parts h.compiled
  obtain ⟨G', hG', hGG⟩ := Schema.forall₂_mem hparts.frags hx
  rw [hparts.stores]
  apply List.mem_append_left
  rw [List.mem_flatMap]
  refine ⟨G', hG', ?_⟩
  unfold SNode.frag at hGG
  simp only [hb, Except.ok.injEq, Schema.PieceStoreN.frag] at hGG
  rw [← hGG]
  exact List.mem_append_right _ List.mem_cons_self

include H

/-- The volumes of the stores at the allocations. -/
theorem pieces_stored {b : Schema.PieceStoreN} (hb : x.body = .pieceStore b) {t : Nat} (ht : t < n) :
    ∃ vs : List ℚ, (Schema.coreNodes F x.name).map (fun d => stored F (st t) d.name) = vs.map some := by
  have hcore := pieces_core h hx hb
  generalize Schema.coreNodes F x.name = ds at hcore
  induction ds with
  | nil => exact ⟨[], rfl⟩
  | cons d ds ih =>
    obtain ⟨vs, h1⟩ := ih fun d hd => hcore d (List.mem_cons_of_mem _ hd)
    obtain ⟨hd, hk⟩ := hcore d List.mem_cons_self
    have : ∃ v, stored F (st t) d.name = some v := by
      cases t with
      | zero => obtain ⟨_, v, -, -, hv⟩ := H.initial ht d hd hk; exact ⟨v, hv⟩
      | succ t => obtain ⟨v, -, hv⟩ := H.balance t ht d hd hk; exact ⟨_, hv⟩
    obtain ⟨v, hv⟩ := this
    exact ⟨v :: vs, by rw [List.map_cons, List.map_cons, h1, hv]⟩

theorem pieces_step {b : Schema.PieceStoreN} (hb : x.body = .pieceStore b) {t : Nat} (ht : t + 1 < n) {vs ws : List ℚ}
    (hv : (Schema.coreNodes F x.name).map (fun d => stored F (st t) d.name) = vs.map some)
    (hw : (Schema.coreNodes F x.name).map (fun d => stored F (st (t + 1)) d.name) = ws.map some) :
    ws.sum = vs.sum + (E.time t).days * (received D.net F (f t) x.name - sent D.net F (f t) x.name) := by
  have hcore := pieces_core h hx hb
  rw [← pieces_flow (f := f) h hx hb t]
  generalize Schema.coreNodes F x.name = ds at hcore hv hw
  induction ds generalizing vs ws with
  | nil =>
    cases vs with
    | nil => cases ws with | nil => simp | cons w ws => cases hw
    | cons v vs => cases hv
  | cons d ds ih =>
    cases vs with
    | nil => cases hv
    | cons v vs =>
      cases ws with
      | nil => cases hw
      | cons w ws =>
        simp only [List.map_cons, List.cons.injEq] at hv hw
        have := ih (fun d hd => hcore d (List.mem_cons_of_mem _ hd)) hv.2 hw.2
        obtain ⟨hd, hk⟩ := hcore d List.mem_cons_self
        obtain ⟨v', e1, e2⟩ := H.balance t ht d hd hk
        rw [hv.1, Option.some.injEq] at e1
        rw [hw.1, Option.some.injEq] at e2
        subst e1
        rw [List.sum_cons, List.sum_cons, List.map_cons, List.sum_cons, this, e2]
        ring

/-- **C99 (piecewise storages).** Over a run, the stores of a piecewise storage together behave as one storage: they start with its initial volume, poured in
from below, their volume changes by what the node receives less what it sends, stays between its least and largest volumes, and is what the metrics of
the node show. Asked of the metrics: that the parameters that the node makes for itself have the values by which they are defined. -/
theorem C99_pieces {b : Schema.PieceStoreN} (hb : x.body = .pieceStore b) (hl : PiecesListed D b)
    (hc : ∀ t < n, Schema.Computed D.numbers F (st t).metric) : ∃ vol, PieceCourse D E F C n S f x b vol := by
  let at' : Nat → ℚ := fun t => ((Schema.coreNodes F x.name).map fun d => (stored F (st t) d.name).getD 0).sum
  let vol : Nat → ℚ := fun t => match t with
    | 0 => at' 0
    | t + 1 => at' t + (E.time t).days * (received D.net F (f t) x.name - sent D.net F (f t) x.name)
  have hat : ∀ t {vs : List ℚ}, (Schema.coreNodes F x.name).map (fun d => stored F (st t) d.name) = vs.map some → at' t = vs.sum := by
    intro t vs hvs
    have := congrArg (fun l => (l.map fun (o : Option ℚ) => o.getD 0).sum) hvs
    simp only [List.map_map, Function.comp_def, Option.getD_some, List.map_id'] at this
    exact this
  have hvol : ∀ t < n, vol t = at' t := by
    intro t ht
    cases t with
    | zero => rfl
    | succ t =>
      obtain ⟨vs, hvs⟩ := pieces_stored h H hx hb (t := t) (by omega)
      obtain ⟨ws, hws⟩ := pieces_stored h H hx hb ht
      rw [hat _ hws, pieces_step h H hx hb ht hvs hws, ← hat _ hvs]
  have hsucc : ∀ t < n, vol (t + 1) = vol t + (E.time t).days * (received D.net F (f t) x.name - sent D.net F (f t) x.name) := by
    intro t ht
    rw [hvol t ht]
  have htop : ∀ t < n, ∃ top, b.maxVolume.get (st t).metric = some top := fun t ht =>
    has_value H ht fun id e => hl id (by rw [e]; exact List.mem_cons_self)
  have hcurves : ∀ t < n, ∃ cs : List ℚ, b.steps.map (fun s => s.curve.get (st t).metric) = cs.map some ∧
      List.Forall₂ (Means D (D.args E F C) S t) (b.steps.map (·.curve)) cs := by
    intro t ht
    obtain ⟨cs, h1, h2⟩ := have_values H ht (ms := b.steps.map (·.curve)) fun id hid => hl id (List.mem_append_right _ hid)
    rw [List.map_map] at h1
    exact ⟨cs, h1, h2⟩
  have hds : List.Forall₂ (fun y (d : Decl) => d ∈ F.nodes ∧ d.name = y ∧ d.kind = .storage)
      ((Schema.coreNodes F x.name).map (·.name)) (Schema.coreNodes F x.name) := by
    rw [List.forall₂_map_left_iff, List.forall₂_same]
    exact fun d hd => ⟨(pieces_core h hx hb d hd).1, rfl, (pieces_core h hx hb d hd).2⟩
  have hsizes : ∀ t < n, ∀ qs : List ℚ, List.Forall₂ (fun (d : Decl) v => ValueIs (st t).metric d.data.maxVolume f64MAX v) (Schema.coreNodes F x.name) qs →
      Means D (D.args E F C) S t b.maxVolume qs.sum := by
    intro t ht qs hq
    obtain ⟨top, ht'⟩ := htop t ht
    obtain ⟨cs, hcs, -⟩ := hcurves t ht
    obtain ⟨h1, h2⟩ := Schema.C71_sizes h (hc t ht) hx hb ht' hcs
    have : qs = Schema.cut top cs := by
      generalize Schema.coreNodes F x.name = ds at hq h1
      generalize Schema.cut top cs = ss at h1
      induction hq generalizing ss with
      | nil => cases h1; rfl
      | cons e _ ih =>
        cases h1 with
        | cons e' h1 =>
          obtain ⟨m, e1, e2⟩ := e'
          rw [e1] at e
          rw [ih _ h1, Option.some.inj (e.symm.trans e2)]
    rw [this, h2]
    exact means H ht ht'
  have hshow : ∀ t < n, ∃ nows befores : List ℚ, Means D (D.args E F C) S t b.maxVolume nows.sum ∧
      Means D (D.args E F C) S (t - 1) b.maxVolume befores.sum ∧ ∀ r,
      (NamesVolume D r (x.name, some "agg-store") → ∀ o q,
        (SNum (D.args E F C) S .early t o (.component r) q ↔ q = vol t) ∧
        (SNum (D.args E F C) S .late t o (.component r) q ↔ q = vol (t + 1))) ∧
      (NamesShare D r (x.name, some "agg-store") → ∀ o q,
        (SNum (D.args E F C) S .early t o (.component r) q ↔ q = Coupled.share (vol t) befores.sum) ∧
        (SNum (D.args E F C) S .late t o (.component r) q ↔ q = Coupled.share (vol (t + 1)) nows.sum)) := by
    intro t ht
    obtain ⟨vs, nows, befores, h1, h4, h5, h6⟩ := H.stores t ht _ (pieces_decl h hx hb) _ hds
    have e1 : vs.sum = vol t := by
      rw [hvol t ht]
      refine (hat t ?_).symm
      clear h4 h5 h6 hds
      generalize Schema.coreNodes F x.name = ds at h1
      induction h1 with
      | nil => rfl
      | cons e _ ih => rw [List.map_cons, List.map_cons, e, ih]
    have e2 : (List.zipWith (fun (d : Decl) v => v + (E.time t).days * Schema.coreFlow F (f t) d) (Schema.coreNodes F x.name) vs).sum = vol (t + 1) := by
      rw [hsucc t ht, ← e1, ← pieces_flow (f := f) h hx hb t]
      clear h4 h5 h6 e1 hds
      generalize Schema.coreNodes F x.name = ds at h1
      induction h1 with
      | nil => simp
      | cons e _ ih => rw [List.zipWith_cons_cons, List.sum_cons, ih, List.sum_cons, List.map_cons, List.sum_cons]; ring
    refine ⟨nows, befores, hsizes t ht _ h4, hsizes (t - 1) (by omega) _ h5, fun r => ⟨fun hn o q => ?_, fun hn o q => ?_⟩⟩
    · have := (h6 r).1 hn
      rw [e1, e2] at this
      exact ⟨this.1 o q, this.2 o q⟩
    · have := (h6 r).2 hn
      rw [e1, e2] at this
      exact ⟨this.1 o q, this.2 o q⟩
  refine ⟨vol, fun hn => ?_, hsucc, fun t ht => ?_, fun r hr t ht o q => ?_, fun r hr t ht => ?_⟩
  · obtain ⟨top, ht'⟩ := htop 0 hn
    obtain ⟨cs, hcs, hcm⟩ := hcurves 0 hn
    refine ⟨top, cs, means H hn ht', hcm, fun v hv h0 hv0 hs => ?_⟩
    obtain ⟨h1, h2⟩ := Schema.C71_initial h (hc 0 hn) hx hb ht' hcs h0 hs (v := v) (by
      cases hi : b.initial with
      | proportional p => rw [hi] at hv; exact Or.inl ⟨p, rfl, hv⟩
      | absolute a => rw [hi] at hv; simp only at hv; rw [hv]; exact Or.inr rfl) hv0
    rw [← h2]
    refine hat 0 ?_
    have hcore := pieces_core h hx hb
    generalize Schema.coreNodes F x.name = ds at h1 hcore
    clear h2
    generalize Schema.pour v (Schema.cut top cs) = ss at h1
    induction h1 with
    | nil => rfl
    | @cons d s ds ss e _ ih =>
      obtain ⟨hd, hk⟩ := hcore d List.mem_cons_self
      obtain ⟨hi, w, g1, g2, g3⟩ := H.initial hn d hd hk
      rw [List.map_cons, List.map_cons, ih fun d hd => hcore d (List.mem_cons_of_mem _ hd), g3, begins_start g1 g2 e]
  · obtain ⟨top, ht'⟩ := htop t ht
    obtain ⟨cs, hcs, hcm⟩ := hcurves t ht
    obtain ⟨vs, h1, h2, h3, h4⟩ := Schema.C71_range h (H.allowed t ht) hx hb (hc t ht) ht' hcs
    have e : vs.sum + (st t).days * (received D.net F (f t) x.name - sent D.net F (f t) x.name) = vol (t + 1) := by
      rw [hsucc t ht, hvol t ht, hat t h1, H.days t ht]
    rw [e] at h2 h3 h4
    refine ⟨top, cs, means H ht ht', hcm, h2, h3, fun m hm => ?_⟩
    obtain ⟨lo, hlo⟩ := has_value H ht (m := m) fun id e => hl id (by
      rw [hm, ← e]; exact List.mem_append_left _ (List.mem_cons_of_mem _ (by simp)))
    exact ⟨lo, means H ht hlo, fun a b c => h4 m lo hm hlo a b c⟩
  · obtain ⟨nows, befores, -, -, h1⟩ := hshow t ht
    refine (h1 r).1 (.inr ?_) o q
    rcases hr with hr | hr <;> rw [hr, target_node h hx] <;>
      simp only [Schema.SNode.metric, hb, Option.getD_some, Option.getD_none]
  · obtain ⟨nows, befores, h2, h3, h1⟩ := hshow t ht
    refine ⟨_, _, h2, h3, (h1 r).2 (.inr ?_)⟩
    rw [hr, target_node h hx]
    simp only [Schema.SNode.metric, hb, Option.getD_some]

end

end Verif.EndToEnd
