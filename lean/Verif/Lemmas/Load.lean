import Verif.Spec.Load

/-! # What loading leaves behind -/

namespace Verif.Load

open Verif.Params Verif.Kinds

variable {W : Type} {A : Args W}

/-- The parameters that metrics add. -/
inductive Gen (A : Args W) : PName → Kind W → Prop
  | column (s : String) (table : List (String × List ℚ)) (c : String × List ℚ) (hs : A.series s = some table) (hc : c ∈ table) :
      Gen A (named c.1 (some s)) (.scheduled fun t => c.2[t]?)
  | group (s : String) (table : List (String × List ℚ)) (g : String) (i : Nat × Nat) (hs : A.series s = some table)
      (hg : A.scenario g = some i) :
      Gen A (named g (some s)) (.scheduled fun t => (table[i.1]?).bind fun c => c.2[t]?)
  | deficit (c node : String) (f l : W → Option ℚ) (hc : A.comp c = .ok (.deficit node f l)) :
      Gen A (named "deficit" (some node)) (.deficit (.node fun w => (f w).map ofF) (.node fun w => (l w).map ofF))

/-- An action keeps what is there, adds parameters with the names `N` or for metrics, and its result is as `R` says. -/
def Safe (A : Args W) (N : Nat → Prop) {α : Type} (m : Step W α) (R : List (Param W) → α → Prop) : Prop :=
  ∀ st a st', m st = .ok (a, st') →
    ((∀ p ∈ st, p ∈ st') ∧ ∀ p ∈ st', p ∈ st ∨ (∃ n, Gen A n p.kind ∧ p.name = A.code n) ∨ N p.name) ∧
      ∀ ps, (∀ p ∈ st', p ∈ ps) → R ps a

variable {N : Nat → Prop} {α β : Type}

theorem bind_ok {m : Step W α} {f : α → Step W β} {st st' : List (Param W)} {b : β} :
    (m >>= f) st = .ok (b, st') ↔ ∃ a mid, m st = .ok (a, mid) ∧ f a mid = .ok (b, st') := by
  show Step.bind m f st = _ ↔ _
  unfold Step.bind
  cases h : m st with
  | error e => simp
  | ok r => obtain ⟨a, mid⟩ := r; simp

theorem Safe.pure {R : List (Param W) → α → Prop} {a : α} (h : ∀ ps, R ps a) : Safe A N (Pure.pure a : Step W α) R := by
  intro st b st' he
  have he' : (Except.ok (a, st) : Except Err _) = .ok (b, st') := he
  obtain ⟨rfl, rfl⟩ := Prod.mk.inj (Except.ok.inj he')
  exact ⟨⟨fun _ h => h, fun _ h => .inl h⟩, fun ps _ => h ps⟩

theorem Safe.bind {m : Step W α} {f : α → Step W β} {R : List (Param W) → α → Prop} {R' : List (Param W) → β → Prop}
    (hm : Safe A N m R) (hf : ∀ a, Safe A N (f a) fun ps b => R ps a → R' ps b) : Safe A N (m >>= f) R' := by
  intro st b st' he
  obtain ⟨a, mid, h1, h2⟩ := bind_ok.1 he
  obtain ⟨⟨k1, k2⟩, k3⟩ := hm st a mid h1
  obtain ⟨⟨l1, l2⟩, l3⟩ := hf a mid b st' h2
  refine ⟨⟨fun p hp => l1 p (k1 p hp), fun p hp => ?_⟩, fun ps hps => l3 ps hps (k3 ps fun p hp => hps p (l1 p hp))⟩
  rcases l2 p hp with h | h
  · exact k2 p h
  · exact .inr h

theorem Safe.bindOf {m : Step W α} {f : α → Step W β} {R : List (Param W) → α → Prop} {R' : List (Param W) → β → Prop}
    (hm : Safe A N m R) (hf : ∀ a, (∃ ps, R ps a) → Safe A N (f a) R') : Safe A N (m >>= f) R' := by
  intro st b st' he
  obtain ⟨a, mid, h1, h2⟩ := bind_ok.1 he
  obtain ⟨⟨k1, k2⟩, k3⟩ := hm st a mid h1
  obtain ⟨⟨l1, l2⟩, l3⟩ := hf a ⟨mid, k3 mid fun _ h => h⟩ mid b st' h2
  refine ⟨⟨fun p hp => l1 p (k1 p hp), fun p hp => ?_⟩, l3⟩
  rcases l2 p hp with h | h
  · exact k2 p h
  · exact .inr h

theorem Safe.mono {m : Step W α} {R R' : List (Param W) → α → Prop} (hm : Safe A N m R) (h : ∀ ps a, R ps a → R' ps a) :
    Safe A N m R' := by
  intro st a st' he
  obtain ⟨k1, k2⟩ := hm st a st' he
  exact ⟨k1, fun ps hps => h ps a (k2 ps hps)⟩

theorem Safe.fail {R : List (Param W) → α → Prop} {e : Err} : Safe A N (fail e : Step W α) R := by
  intro st a st' he
  cases he

theorem Safe.need {e : Err} {o : Option α} : Safe A N (need e o : Step W α) fun _ a => o = some a := by
  cases o with
  | none => exact .fail
  | some a => exact .pure fun _ => rfl

theorem Safe.push {n : PName} {k : Kind W} (h : N (A.code n)) :
    Safe A N (push A n k) fun ps _ => (⟨A.code n, k⟩ : Param W) ∈ ps := by
  intro st a st' he
  have he' : (Except.ok ((), st ++ [⟨A.code n, k⟩]) : Except Err _) = .ok (a, st') := he
  obtain ⟨-, rfl⟩ := Prod.mk.inj (Except.ok.inj he')
  refine ⟨⟨fun p hp => List.mem_append_left _ hp, fun p hp => ?_⟩, fun ps hps => hps _ (by simp)⟩
  rcases List.mem_append.1 hp with h1 | h1
  · exact .inl h1
  · rw [List.mem_singleton.1 h1]; exact .inr (.inr h)

theorem Safe.pushNew {n : PName} {k : Kind W} (h : Gen A n k) :
    Safe A N (pushNew A n k) fun ps _ => ∃ p ∈ ps, p.name = A.code n := by
  intro st a st' he
  unfold Load.pushNew at he
  by_cases hc : (st.any fun p => decide (p.name = A.code n)) = true
  · rw [if_pos hc] at he
    obtain ⟨-, rfl⟩ := Prod.mk.inj (Except.ok.inj he)
    refine ⟨⟨fun p hp => hp, fun p hp => .inl hp⟩, fun ps hps => ?_⟩
    obtain ⟨p, hp, h1⟩ := List.any_eq_true.1 hc
    exact ⟨p, hps p hp, of_decide_eq_true h1⟩
  · rw [if_neg hc] at he
    obtain ⟨-, rfl⟩ := Prod.mk.inj (Except.ok.inj he)
    refine ⟨⟨fun p hp => List.mem_append_left _ hp, fun p hp => ?_⟩, fun ps hps => ⟨_, hps ⟨A.code n, k⟩ (by simp), rfl⟩⟩
    rcases List.mem_append.1 hp with h1 | h1
    · exact .inl h1
    · rw [List.mem_singleton.1 h1]; exact .inr (.inl ⟨n, h, rfl⟩)

theorem Safe.each {f : α → Step W β} {R : α → List (Param W) → β → Prop} {l : List α} (h : ∀ a ∈ l, Safe A N (f a) (R a)) :
    Safe A N (each f l) fun ps bs => List.Forall₂ (fun a b => R a ps b) l bs := by
  induction l with
  | nil => exact .pure fun _ => .nil
  | cons a l ih =>
    refine .bind (h a List.mem_cons_self) fun b => .bind (ih fun a ha => h a (List.mem_cons_of_mem _ ha)) fun bs => ?_
    exact .pure fun ps h1 h2 => .cons h2 h1

theorem Safe.ite {c : Prop} [Decidable c] {m m' : Step W α} {R : List (Param W) → α → Prop}
    (h1 : c → Safe A N m R) (h2 : ¬ c → Safe A N m' R) : Safe A N (if c then m else m') R := by
  by_cases hc : c
  · rw [if_pos hc]; exact h1 hc
  · rw [if_neg hc]; exact h2 hc

theorem Safe.names {N' : Nat → Prop} {m : Step W α} {R : List (Param W) → α → Prop} (hm : Safe A N m R) (h : ∀ c, N c → N' c) :
    Safe A N' m R := by
  intro st a st' he
  obtain ⟨⟨k1, k2⟩, k3⟩ := hm st a st' he
  refine ⟨⟨k1, fun p hp => ?_⟩, k3⟩
  rcases k2 p hp with h1 | h1 | h1
  · exact .inl h1
  · exact .inr (.inl h1)
  · exact .inr (.inr (h _ h1))

/-- A parameter of this name is there. -/
def There (ps : List (Param W)) (c : Nat) : Prop := ∃ p ∈ ps, p.name = c

/-- The source a metric has become. -/
def Became (A : Args W) (ps : List (Param W)) (o : Option String) : SMetric → Source W → Prop
  | .literal v, s => s = .lit (ofF v)
  | .table r, s => ∃ v, A.table r = some v ∧ s = .lit (ofF v)
  | .component c, s =>
    (∃ f, A.comp c = .ok (.shown f) ∧ s = .node fun w => (f w).map ofF) ∨
    ∃ node f l, A.comp c = .ok (.deficit node f l) ∧
      s = .param (.value (A.code (named "deficit" (some node))) .afterOrInitial) ∧
      There ps (A.code (named "deficit" (some node)))
  | .series s c, src => ∃ table name f, A.series s = some table ∧ Gen A (named name (some s)) (.scheduled f) ∧
      src = .param (.value (A.code (named name (some s))) .before) ∧ There ps (A.code (named name (some s))) ∧
      ∀ t q, f t = some q ↔
        match c with
        | none => ∃ c, table = [c] ∧ c.2[t]? = some q
        | some (.column name) => ∃ values, (name, values) ∈ table ∧ values[t]? = some q
        | some (.scenario group) => ∃ i c, A.scenario group = some i ∧ table[i.1]? = some c ∧ c.2[t]? = some q
  | .param r, s => s = r.load A none
  | .localParam r, s => ∃ p, o = some p ∧ s = r.load A (some p)

/-- The source an index metric has become. -/
def BecameIndex (A : Args W) (o : Option String) : SIndex → Source W → Prop
  | .constant v, s => s = .lit (ofU v)
  | .table r, s => ∃ v, A.tableIndex r = some v ∧ s = .lit (ofU v)
  | .node _, _ => False
  | .param r, s => s = r.loadIndex A none
  | .localParam r, s => ∃ p, o = some p ∧ s = r.loadIndex A (some p)
  | .transfer n, s => s = .node fun w => (A.transfer n w).map ofU

theorem find_unique {table : List (String × List ℚ)} (hn : (table.map Prod.fst).Nodup) {c c' : String × List ℚ} (hc : c ∈ table)
    (hc' : c' ∈ table) (h : c.1 = c'.1) : c = c' := List.inj_on_of_nodup_map hn hc hc' h

theorem loadColumn_safe {s : String} {table : List (String × List ℚ)} (hs : A.series s = some table)
    (hu : (table.map Prod.fst).Nodup) (col : String) :
    Safe A N (loadColumn A s table col) fun ps n => ∃ f, n = named col (some s) ∧ Gen A n (.scheduled f) ∧
      There ps (A.code n) ∧ ∀ t q, f t = some q ↔ ∃ values, (col, values) ∈ table ∧ values[t]? = some q := by
  refine .bindOf .need fun c ⟨_, hc⟩ => ?_
  have h1 : c.1 = col := by simpa using List.find?_some hc
  have h2 : c ∈ table := List.mem_of_find?_eq_some hc
  subst h1
  refine .bind (.pushNew (.column s table c hs h2)) fun _ => ?_
  refine .pure fun ps h3 => ⟨_, rfl, .column s table c hs h2, h3, fun t q => ?_⟩
  constructor
  · intro h; exact ⟨c.2, h2, h⟩
  · rintro ⟨values, h4, h5⟩
    have := find_unique hu h4 h2 rfl
    rw [← this]; exact h5

theorem loadGroup_safe {s : String} {table : List (String × List ℚ)} (hs : A.series s = some table) (g : String) :
    Safe A N (loadGroup A s table g) fun ps n => ∃ f, n = named g (some s) ∧ Gen A n (.scheduled f) ∧
      There ps (A.code n) ∧ ∀ t q, f t = some q ↔
        ∃ i c, A.scenario g = some i ∧ table[i.1]? = some c ∧ c.2[t]? = some q := by
  refine .bindOf .need fun i ⟨_, hi⟩ => ?_
  refine .bind (.pushNew (.group s table g i hs hi)) fun _ => ?_
  refine .pure fun ps h3 => ⟨_, rfl, .group s table g i hs hi, h3, fun t q => ?_⟩
  rw [hi]
  simp [Option.bind_eq_some_iff]

theorem loadSeries_safe {s : String} (hu : ∀ s table, A.series s = some table → (table.map Prod.fst).Nodup)
    (columns : Option Columns) (o : Option String) :
    Safe A N (loadSeries A s columns) fun ps src => Became A ps o (.series s columns) src := by
  refine .bindOf .need fun table ⟨_, hs⟩ => ?_
  match columns with
  | some (.scenario g) =>
    refine .bind (loadGroup_safe hs g) fun n => .pure ?_
    rintro ps ⟨f, rfl, h1, h2, h3⟩
    exact ⟨table, _, f, hs, h1, rfl, h2, h3⟩
  | some (.column c) =>
    refine .bind (loadColumn_safe hs (hu s table hs) c) fun n => .pure ?_
    rintro ps ⟨f, rfl, h1, h2, h3⟩
    exact ⟨table, _, f, hs, h1, rfl, h2, h3⟩
  | none =>
    match table, hs with
    | [], hs => exact .bind (R := fun _ _ => False) .fail fun n => .pure fun ps h => h.elim
    | [c], hs =>
      refine .bind (loadColumn_safe hs (hu s [c] hs) c.1) fun n => .pure ?_
      rintro ps ⟨f, rfl, h1, h2, h3⟩
      refine ⟨[c], _, f, hs, h1, rfl, h2, fun t q => ?_⟩
      rw [h3]
      constructor
      · rintro ⟨values, h4, h5⟩
        refine ⟨c, rfl, ?_⟩
        rw [← List.mem_singleton.1 h4]; exact h5
      · rintro ⟨c', h4, h5⟩
        obtain rfl := (List.cons.inj h4).1
        exact ⟨_, List.mem_singleton.2 rfl, h5⟩
    | _ :: _ :: _, hs => exact .bind (R := fun _ _ => False) .fail fun n => .pure fun ps h => h.elim

theorem SMetric.load_safe (hu : ∀ s table, A.series s = some table → (table.map Prod.fst).Nodup) (o : Option String)
    (m : SMetric) : Safe A N (m.load A o) fun ps s => Became A ps o m s := by
  cases m with
  | literal v => exact .pure fun _ => rfl
  | table r => exact .bindOf .need fun v ⟨_, hv⟩ => .pure fun _ => ⟨v, hv, rfl⟩
  | component c =>
    show Safe A N (loadComponent A c) _
    unfold loadComponent
    cases hc : A.comp c with
    | error e => exact .fail
    | ok found =>
      cases found with
      | shown f => exact .pure fun _ => .inl ⟨f, hc, rfl⟩
      | deficit node f l =>
        exact .bind (.pushNew (.deficit c node f l hc)) fun _ => .pure fun _ h => .inr ⟨node, f, l, hc, rfl, h⟩
  | series s c => exact loadSeries_safe hu c o
  | param r => exact .pure fun _ => rfl
  | localParam r =>
    cases o with
    | none => exact .fail
    | some p => exact .pure fun _ => ⟨p, rfl, rfl⟩

theorem Became.none_any {ps : List (Param W)} {o : Option String} {m : SMetric} {s : Source W} (h : Became A ps none m s) :
    Became A ps o m s := by
  cases m with
  | localParam r => obtain ⟨p, h1, -⟩ := h; cases h1
  | _ => exact h

theorem BecameIndex.none_any {o : Option String} {m : SIndex} {s : Source W} (h : BecameIndex A none m s) :
    BecameIndex A o m s := by
  cases m with
  | localParam r => obtain ⟨p, h1, -⟩ := h; cases h1
  | _ => exact h

theorem SIndex.load_safe (o : Option String) (m : SIndex) : Safe A N (m.load A o) fun _ s => BecameIndex A o m s := by
  cases m with
  | constant v => exact .pure fun _ => rfl
  | table r => exact .bindOf .need fun v ⟨_, hv⟩ => .pure fun _ => ⟨v, hv, rfl⟩
  | node n => exact .ite (fun _ => .fail) fun _ => .fail
  | param r => exact .pure fun _ => rfl
  | localParam r =>
    cases o with
    | none => exact .fail
    | some p => exact .pure fun _ => ⟨p, rfl, rfl⟩
  | transfer n => exact .pure fun _ => rfl

theorem SConst.load_safe (c : SConst) : Safe A N (c.load A) fun _ q => c.Is A q := by
  cases c with
  | lit v => exact .pure fun _ => rfl
  | table r => exact .need

theorem natOr_safe (d : Nat) (c : Option SNat) : Safe A N (natOr A d c) fun _ k => NatIs A d c k := by
  match c with
  | none => exact .pure fun _ => rfl
  | some (.lit v) => exact .pure fun _ => rfl
  | some (.table r) => exact .need

theorem SList.load_safe (c : SList) : Safe A N (c.load A) fun _ q => c.Is A q := by
  cases c with
  | lit v => exact .pure fun _ => rfl
  | table r => exact .need

end Verif.Load
