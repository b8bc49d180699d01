import Verif.Spec.Python

/-!
# Lemmas about Python parameters
-/

namespace Verif.Python

variable {O A : Type}

theorem lookup_put {α : Type} (k k' : String) (v : α) (xs : List (String × α)) :
    (put k v xs).lookup k' = if k' = k then some v else xs.lookup k' := by
  induction xs with
  | nil =>
    simp only [put, List.lookup_cons, List.lookup_nil]
    by_cases h : k' = k
    · simp [h]
    · have : (k' == k) = false := by simpa using h
      simp [h, this]
  | cons p xs ih =>
    obtain ⟨a, b⟩ := p
    unfold put
    by_cases h : a = k
    · subst h
      simp only [if_true, List.lookup_cons]
      by_cases h' : k' = a
      · simp [h']
      · have : (k' == a) = false := by simpa using h'
        simp [h', this]
    · simp only [if_neg h, List.lookup_cons, ih]
      by_cases h' : k' = a
      · subst h'; simp [h]
      · have : (k' == a) = false := by simpa using h'
        simp [this]

theorem update_some {α : Type} {look : Nat → Option α} : ∀ {ms : List (String × Nat)} {vs ws : List (String × α)}, (ms.map (·.1)).Nodup →
    update look ms vs = some ws →
    (∀ k m, (k, m) ∈ ms → ∃ v, look m = some v ∧ ws.lookup k = some v) ∧ ∀ k, k ∉ ms.map (·.1) → ws.lookup k = vs.lookup k
  | [], vs, ws, _, h => by
    simp only [update, Option.some.injEq] at h
    subst h
    simp
  | (a, b) :: ms, vs, ws, hn, h => by
    unfold update at h
    cases hl : look b with
    | none => rw [hl] at h; cases h
    | some v =>
      rw [hl] at h
      simp only [List.map_cons, List.nodup_cons] at hn
      obtain ⟨h1, h2⟩ := update_some hn.2 h
      refine ⟨fun k m hm => ?_, fun k hk => ?_⟩
      · rcases List.mem_cons.1 hm with e | hm
        · obtain ⟨rfl, rfl⟩ := Prod.mk.inj e
          refine ⟨v, hl, ?_⟩
          rw [h2 _ hn.1, lookup_put, if_pos rfl]
        · exact h1 k m hm
      · simp only [List.map_cons, List.mem_cons, not_or] at hk
        rw [h2 k hk.2, lookup_put, if_neg hk.1]

theorem update_none {α : Type} {look : Nat → Option α} : ∀ {ms : List (String × Nat)} {vs : List (String × α)},
    update look ms vs = none → ∃ k m, (k, m) ∈ ms ∧ look m = none
  | [], vs, h => by simp [update] at h
  | (a, b) :: ms, vs, h => by
    unfold update at h
    cases hl : look b with
    | none => exact ⟨a, b, List.mem_cons_self, hl⟩
    | some v =>
      rw [hl] at h
      obtain ⟨k, m, h1, h2⟩ := update_none h
      exact ⟨k, m, List.mem_cons_of_mem _ h1, h2⟩

/-- The information object has no other keys than the declared ones. -/
def Clean (P : Common) (i : Info) : Prop :=
  (∀ k, k ∉ P.metrics.map (·.1) → i.metrics.lookup k = none) ∧ ∀ k, k ∉ P.indices.map (·.1) → i.indices.lookup k = none

theorem ensure_clean (P : Common) (x : Ctx) {s : Option Info} (h : ∀ i, s = some i → Clean P i) : Clean P (ensure x s) := by
  cases s with
  | none => exact ⟨fun k _ => rfl, fun k _ => rfl⟩
  | some i => exact h i rfl

theorem refresh_some {P : Common} (hk : P.Keyed) {x : Ctx} {i j : Info} (hi : Clean P i) (h : refresh P x i = some j) : Sees P x j.view ∧ Clean P j := by
  unfold refresh at h
  cases h1 : update x.metric P.metrics i.metrics with
  | none => simp only [h1] at h; cases h
  | some ms =>
    simp only [h1] at h
    cases h2 : update x.index P.indices i.indices with
    | none => simp only [h2] at h; cases h
    | some is =>
      simp only [h2, Option.some.injEq] at h
      subst h
      obtain ⟨a1, a2⟩ := update_some hk.1 h1
      obtain ⟨b1, b2⟩ := update_some hk.2 h2
      have c1 : ∀ k, k ∉ P.metrics.map (·.1) → ms.lookup k = none := fun k h => (a2 k h).trans (hi.1 k h)
      have c2 : ∀ k, k ∉ P.indices.map (·.1) → is.lookup k = none := fun k h => (b2 k h).trans (hi.2 k h)
      exact ⟨⟨rfl, rfl, a1, b1, c1, c2⟩, c1, c2⟩

theorem refresh_none {P : Common} {x : Ctx} {i : Info} (h : refresh P x i = none) (v : View) : ¬ Sees P x v := by
  intro hs
  unfold refresh at h
  cases h1 : update x.metric P.metrics i.metrics with
  | none =>
    obtain ⟨k, m, e1, e2⟩ := update_none h1
    obtain ⟨q, e3, -⟩ := hs.metrics k m e1
    rw [e2] at e3; cases e3
  | some ms =>
    simp only [h1] at h
    cases h2 : update x.index P.indices i.indices with
    | none =>
      obtain ⟨k, m, e1, e2⟩ := update_none h2
      obtain ⟨q, e3, -⟩ := hs.indices k m e1
      rw [e2] at e3; cases e3
    | some is => simp only [h2] at h; cases h

theorem Sees.unique {P : Common} {x : Ctx} {v w : View} (hv : Sees P x v) (hw : Sees P x w) : v = w := by
  obtain ⟨s, c, m, i⟩ := v
  obtain ⟨s', c', m', i'⟩ := w
  have e1 : s = s' := hv.step.trans hw.step.symm
  have e2 : c = c' := hv.scenario.trans hw.scenario.symm
  have e3 : m = m' := by
    funext k
    by_cases hk : k ∈ P.metrics.map (·.1)
    · obtain ⟨⟨k', n⟩, hp, rfl⟩ := List.mem_map.1 hk
      obtain ⟨q, a1, a2⟩ := hv.metrics _ _ hp
      obtain ⟨q', b1, b2⟩ := hw.metrics _ _ hp
      have : q = q' := Option.some.inj (a1.symm.trans b1)
      subst this
      exact a2.trans b2.symm
    · exact (hv.noMetric k hk).trans (hw.noMetric k hk).symm
  have e4 : i = i' := by
    funext k
    by_cases hk : k ∈ P.indices.map (·.1)
    · obtain ⟨⟨k', n⟩, hp, rfl⟩ := List.mem_map.1 hk
      obtain ⟨q, a1, a2⟩ := hv.indices _ _ hp
      obtain ⟨q', b1, b2⟩ := hw.indices _ _ hp
      have : q = q' := Option.some.inj (a1.symm.trans b1)
      subst this
      exact a2.trans b2.symm
    · exact (hv.noIndex k hk).trans (hw.noIndex k hk).symm
  subst e1 e2 e3 e4
  rfl

theorem toU64_iff (n : Int) (i : Nat) : toU64 n = some i ↔ n = i ∧ i < 2 ^ 64 := by
  unfold toU64
  constructor
  · intro h
    by_cases hn : 0 ≤ n ∧ n < 2 ^ 64
    · rw [if_pos hn, Option.some.injEq] at h; omega
    · rw [if_neg hn] at h; cases h
  · rintro ⟨rfl, h⟩
    rw [if_pos (by omega)]
    simp

theorem asFloat_iff (o : Obj) (q : ℚ) : asFloat o = some q ↔ o = .float q ∨ ∃ n : Int, Whole o n ∧ q = n := by
  cases o <;> simp [asFloat, Whole, eq_comm]
  rename_i b
  cases b <;> simp [eq_comm]

theorem asIndex_iff (o : Obj) (n : Nat) : asIndex o = some n ↔ Whole o n ∧ n < 2 ^ 64 := by
  cases o with
  | int m => simp only [asIndex, toU64_iff, Whole, Obj.int.injEq]; simp
  | bool b =>
    cases b
    · simp only [asIndex, Whole]; simp; omega
    · simp only [asIndex, Whole]; simp; omega
  | _ => simp [asIndex, Whole]

/-- The conversion of a dictionary as one of its entries after the other. -/
theorem asMulti_eq : ∀ (ks : List String) (os : List Obj), asMulti ks os =
    (ks.zip os).foldr (fun p acc => match acc with
      | none => none
      | some (vs, is) => match p.2 with
        | .float q => some ((p.1, q) :: vs, is)
        | o => (asIndex o).map fun i => (vs, (p.1, i) :: is)) (some ([], []))
  | [], os => by cases os <;> rfl
  | k :: ks, [] => rfl
  | k :: ks, o :: os => by
    unfold asMulti
    rw [List.zip_cons_cons, List.foldr_cons, ← asMulti_eq ks os]
    cases asMulti ks os with
    | none => rfl
    | some p =>
      obtain ⟨vs, is⟩ := p
      cases o <;> simp [asIndex]

theorem whole_float (q : ℚ) (n : Int) : ¬ Whole (.float q) n := by simp [Whole]

theorem Whole.unique {o : Obj} {m n : Int} (h : Whole o m) (h' : Whole o n) : m = n := by
  cases o with
  | int k => simp [Whole] at h h'; omega
  | bool b => cases b <;> simp [Whole] at h h' <;> omega
  | _ => simp [Whole] at h

theorem asMulti_iff (ks : List String) (os : List Obj) (vs : List (String × ℚ)) (is : List (String × Nat)) :
    asMulti ks os = some (vs, is) ↔
      (∀ p ∈ ks.zip os, (∃ q, p.2 = .float q) ∨ ∃ n : Nat, Whole p.2 n ∧ n < 2 ^ 64) ∧
      vs = (ks.zip os).filterMap (fun p => match p.2 with | .float q => some (p.1, q) | _ => none) ∧
      is = (ks.zip os).filterMap (fun p => if p.2.isFloat then none else (asIndex p.2).map fun i => (p.1, i)) := by
  rw [asMulti_eq]
  generalize ks.zip os = ps
  induction ps generalizing vs is with
  | nil => constructor <;> intro h <;> simp_all
  | cons p ps ih =>
    obtain ⟨k, o⟩ := p
    rw [List.foldr_cons]
    cases hf : List.foldr (fun (p : String × Obj) acc => match acc with
      | none => none
      | some (vs, is) => match p.2 with
        | .float q => some ((p.1, q) :: vs, is)
        | o => (asIndex o).map fun i => (vs, (p.1, i) :: is)) (some ([], [])) ps with
    | none =>
      simp only [reduceCtorEq, false_iff]
      rintro ⟨h1, h2, h3⟩
      have := (ih (ps.filterMap (fun p => match p.2 with | .float q => some (p.1, q) | _ => none))
        (ps.filterMap (fun p => if p.2.isFloat then none else (asIndex p.2).map fun i => (p.1, i)))).2
        ⟨fun p hp => h1 p (List.mem_cons_of_mem _ hp), rfl, rfl⟩
      rw [hf] at this; cases this
    | some r =>
      obtain ⟨vs', is'⟩ := r
      obtain ⟨g1, g2, g3⟩ := (ih vs' is').1 hf
      have hall : (∀ p ∈ (k, o) :: ps, (∃ q, p.2 = .float q) ∨ ∃ n : Nat, Whole p.2 n ∧ n < 2 ^ 64) ↔
          (∃ q, o = .float q) ∨ ∃ n : Nat, asIndex o = some n := by
        simp only [List.forall_mem_cons, asIndex_iff]
        exact ⟨fun h => h.1, fun h => ⟨h, g1⟩⟩
      rw [hall, g2, g3]
      cases o with
      | float q => constructor <;> intro h <;> simp_all [Obj.isFloat]
      | int m =>
        simp only [List.filterMap_cons]
        cases hx : asIndex (.int m) <;> constructor <;> intro h <;> simp_all [Obj.isFloat]
      | bool b =>
        simp only [List.filterMap_cons]
        cases hx : asIndex (.bool b) <;> constructor <;> intro h <;> simp_all [Obj.isFloat]
      | _ => simp [asIndex]

theorem extract_iff (ty : ReturnType) (o : Obj) (v : Value) : extract ty o = some v ↔ Gives ty o v := by
  cases ty with
  | float =>
    simp only [extract, Option.map_eq_some_iff, Gives, asFloat_iff]
    exact ⟨fun ⟨q, h1, h2⟩ => ⟨q, h2.symm, h1⟩, fun ⟨q, h1, h2⟩ => ⟨q, h2, h1.symm⟩⟩
  | int =>
    simp only [extract, Option.map_eq_some_iff, Gives, asIndex_iff]
    exact ⟨fun ⟨q, h1, h2⟩ => ⟨q, h2.symm, h1⟩, fun ⟨q, h1, h2⟩ => ⟨q, h2, h1.symm⟩⟩
  | dict =>
    cases o with
    | dict ks os =>
      simp only [extract, Option.map_eq_some_iff, Gives]
      have indicesOf : ∀ (ps : List (String × Obj)) (is : List (String × Nat)),
          (∀ p ∈ ps, (∃ q, p.2 = .float q) ∨ ∃ n : Nat, Whole p.2 n ∧ n < 2 ^ 64) →
          (is = ps.filterMap (fun p => if p.2.isFloat then none else (asIndex p.2).map fun i => (p.1, i)) ↔
            List.Forall₂ (fun (p : String × Obj) (e : String × Nat) => e.1 = p.1 ∧ Whole p.2 e.2) (ps.filter fun p => !p.2.isFloat) is) := by
        intro ps
        induction ps with
        | nil => intro is _; simp
        | cons p ps ih =>
          intro is hp
          obtain ⟨k, o⟩ := p
          have hps := fun is => ih is fun p h => hp p (List.mem_cons_of_mem _ h)
          rcases hp _ List.mem_cons_self with ⟨q, hq⟩ | ⟨n, hn⟩
          · simp only at hq
            subst hq
            simpa [Obj.isFloat] using hps is
          · have hi := (asIndex_iff o n).2 hn
            have hfl : o.isFloat = false := by
              cases o with
              | float q => exact absurd hn.1 (whole_float q n)
              | _ => rfl
            rw [List.filterMap_cons_some (b := (k, n)) (by simp [hfl, hi]), List.filter_cons_of_pos (by simp [hfl])]
            constructor
            · rintro rfl
              exact .cons ⟨rfl, hn.1⟩ ((hps _).1 rfl)
            · intro h
              cases h with
              | @cons _ e _ is' h1 h2 =>
                obtain ⟨k', n'⟩ := e
                have e1 : k' = k := h1.1
                have e2 : (n' : Int) = n := h1.2.unique hn.1
                have e3 : n' = n := by omega
                subst e1 e3
                rw [(hps _).2 h2]
      constructor
      · rintro ⟨⟨vs, is⟩, h1, rfl⟩
        obtain ⟨h2, h3, h4⟩ := (asMulti_iff ks os vs is).1 h1
        exact ⟨ks, os, vs, is, rfl, rfl, h2, h3, (indicesOf _ _ h2).1 h4⟩
      · rintro ⟨ks', os', vs, is, e, rfl, h2, h3, h4⟩
        obtain ⟨rfl, rfl⟩ := Obj.dict.inj e
        exact ⟨(vs, is), (asMulti_iff ks os vs is).2 ⟨h2, h3, (indicesOf _ _ h2).2 h4⟩, rfl⟩
    | _ => simp [extract, Gives]

theorem callMethod_ok {C : Class O A} {P : Common} (hk : P.Keyed) {m : Method} {x : Ctx} {s : Internal O} {a : A} (hs : ∀ i, s.info = some i → Clean P i)
    {v : Value} {s' : Internal O} {a' : A} (h : callMethod C P m x s a = .ok (v, s', a')) :
    C.holds s.obj m = true ∧ (∃ view r, Sees P x view ∧ C.call m s.obj a view = some (r, s'.obj, a') ∧ Gives P.returns r v) ∧
      ∀ i, s'.info = some i → Clean P i := by
  unfold callMethod at h
  by_cases hh : C.holds s.obj m = true
  · rw [if_pos hh] at h
    cases h1 : refresh P x (ensure x s.info) with
    | none => simp only [h1] at h; cases h
    | some i =>
      simp only [h1] at h
      cases h2 : C.call m s.obj a i.view with
      | none => simp only [h2] at h; cases h
      | some r =>
        obtain ⟨r, o, b⟩ := r
        simp only [h2] at h
        cases h3 : extract P.returns r with
        | none => simp only [h3] at h; cases h
        | some w =>
          simp only [h3, Except.ok.injEq, Prod.mk.injEq] at h
          obtain ⟨rfl, rfl, rfl⟩ := h
          obtain ⟨g1, g2⟩ := refresh_some hk (ensure_clean P x hs) h1
          refine ⟨hh, ⟨_, r, g1, h2, (extract_iff _ _ _).1 h3⟩, fun j hj => ?_⟩
          obtain rfl := Option.some.inj hj
          exact g2
  · rw [if_neg hh] at h; cases h

theorem callMethod_of {C : Class O A} {P : Common} (hk : P.Keyed) {m : Method} {x : Ctx} {s : Internal O} {a : A} (hs : ∀ i, s.info = some i → Clean P i)
    {v : Value} {view : View} {r : Obj} {o : O} {a' : A} (hh : C.holds s.obj m = true) (h1 : Sees P x view) (h2 : C.call m s.obj a view = some (r, o, a'))
    (h3 : Gives P.returns r v) : ∃ s', callMethod C P m x s a = .ok (v, s', a') ∧ s'.obj = o := by
  unfold callMethod
  rw [if_pos hh]
  cases h4 : refresh P x (ensure x s.info) with
  | none => exact absurd h1 (refresh_none h4 view)
  | some i =>
    have := (refresh_some hk (ensure_clean P x hs) h4).1.unique h1
    simp only [this, h2, (extract_iff _ _ _).2 h3]
    exact ⟨_, rfl, rfl⟩

/-- The objects of a world. -/
def Match (P : Common) (os : Nat → O) (w : World O A) : Prop :=
  ∀ i s, w.objs[i]? = some s → s.obj = os i ∧ ∀ j, s.info = some j → Clean P j

theorem Match.set {P : Common} {os : Nat → O} {w : World O A} (h : Match P os w) (i : Nat) (s : Internal O) (a : A) (hs : ∀ j, s.info = some j → Clean P j) :
    Match P (Function.update os i s.obj) ⟨w.objs.set i s, a⟩ := by
  intro j t ht
  simp only [List.getElem?_set] at ht
  by_cases hj : i = j
  · subst hj
    simp only [if_true] at ht
    by_cases hl : i < w.objs.length
    · rw [if_pos hl, Option.some.injEq] at ht
      subst ht
      exact ⟨by simp, hs⟩
    · rw [if_neg hl] at ht; cases ht
  · rw [if_neg hj] at ht
    obtain ⟨h1, h2⟩ := h j t ht
    exact ⟨by rw [h1, Function.update_of_ne (Ne.symm hj)], h2⟩

theorem exec_iff {C : Class O A} {P : Common} (hk : P.Keyed) : ∀ {es : List Event} {os : Nat → O} {w : World O A} {vs : List Value}, Match P os w →
    (∀ e ∈ es, e.ctx.scenario < w.objs.length) → ((∃ w', exec C P es w = .ok (vs, w')) ↔ Runs C P os w.args es vs)
  | [], os, w, vs, _, _ => by
    constructor
    · rintro ⟨w', h⟩
      simp only [exec, Except.ok.injEq, Prod.mk.injEq] at h
      rw [← h.1]
      exact .done _ _
    · intro h; cases h; exact ⟨w, rfl⟩
  | e :: es, os, w, vs, hm, hl => by
    obtain ⟨s, hs⟩ : ∃ s, w.objs[e.ctx.scenario]? = some s := ⟨_, List.getElem?_eq_getElem (hl e List.mem_cons_self)⟩
    obtain ⟨m1, m2⟩ := hm _ _ hs
    constructor
    · rintro ⟨w', h⟩
      simp only [exec, callAt, hs] at h
      cases h1 : callMethod C P e.method e.ctx s w.args with
      | error err => simp only [h1] at h; cases h
      | ok r =>
        obtain ⟨v, s', a'⟩ := r
        simp only [h1] at h
        obtain ⟨c1, ⟨view, r, c2, c3, c4⟩, c5⟩ := callMethod_ok hk m2 h1
        cases h2 : exec C P es ⟨w.objs.set e.ctx.scenario s', a'⟩ with
        | error err => simp only [h2] at h; cases h
        | ok r2 =>
          obtain ⟨us, w2⟩ := r2
          simp only [h2, Except.ok.injEq, Prod.mk.injEq] at h
          obtain ⟨rfl, rfl⟩ := h
          have := (exec_iff hk (hm.set e.ctx.scenario s' a' c5) (fun e' he' => by
            simpa using hl e' (List.mem_cons_of_mem _ he'))).1 ⟨w2, h2⟩
          rw [m1] at c1 c3
          exact .call c1 c2 c3 c4 this
    · intro h
      cases h with
      | @call _ _ _ _ view r o a' v us c1 c2 c3 c4 c5 =>
        rw [← m1] at c1 c3
        obtain ⟨s', g1, rfl⟩ := callMethod_of hk m2 c1 c2 c3 c4
        obtain ⟨-, -, g3⟩ := callMethod_ok hk m2 g1
        obtain ⟨w', g4⟩ := (exec_iff hk (hm.set e.ctx.scenario s' a' g3) (fun e' he' => by
            simpa using hl e' (List.mem_cons_of_mem _ he'))).2 c5
        exact ⟨w', by simp only [exec, callAt, hs, g1, g4]⟩

theorem setup_some {C : Class O A} : ∀ {k : Nat} {a : A} {w : World O A}, setup C k a = some w →
    w.objs.length = k ∧ ∃ content : Nat → A, content 0 = a ∧ content k = w.args ∧
      ∀ i < k, ∃ s, w.objs[i]? = some s ∧ s.info = none ∧ C.make (content i) = some (s.obj, content (i + 1))
  | 0, a, w, h => by
    simp only [setup, Option.some.injEq] at h
    subst h
    exact ⟨rfl, fun _ => a, rfl, rfl, fun i hi => absurd hi (Nat.not_lt_zero i)⟩
  | k + 1, a, w, h => by
    unfold setup at h
    cases h1 : setup C k a with
    | none => simp only [h1] at h; cases h
    | some w1 =>
      simp only [h1] at h
      cases h2 : C.make w1.args with
      | none => simp only [h2] at h; cases h
      | some r =>
        obtain ⟨o, a'⟩ := r
        simp only [h2, Option.some.injEq] at h
        subst h
        obtain ⟨g1, content, g2, g3, g4⟩ := setup_some h1
        refine ⟨by simp [g1], fun i => if i = k + 1 then a' else content i, by simpa using g2, by simp, fun i hi => ?_⟩
        rcases Nat.lt_succ_iff_lt_or_eq.1 hi with hi | rfl
        · obtain ⟨s, e1, e2, e3⟩ := g4 i hi
          refine ⟨s, by rw [List.getElem?_append_left (by omega)]; exact e1, e2, ?_⟩
          simp only [if_neg (show ¬ i = k + 1 by omega), if_neg (show ¬ i + 1 = k + 1 by omega)]
          exact e3
        · refine ⟨⟨o, none⟩, by simp [← g1], rfl, ?_⟩
          simp only [if_neg (Nat.ne_of_lt (Nat.lt_succ_self i)), if_true, g3]
          exact h2

theorem setup_of {C : Class O A} {os : Nat → O} : ∀ {k : Nat} {a a' : A}, Made C k a os a' → ∃ w, setup C k a = some w ∧ w.args = a'
  | 0, a, a', ⟨content, h1, h2, _⟩ => ⟨⟨[], a⟩, rfl, by rw [← h2, ← h1]⟩
  | k + 1, a, a', ⟨content, h1, h2, h3⟩ => by
    obtain ⟨w, g1, g2⟩ := setup_of (C := C) (os := os) (k := k) (a := a) (a' := content k) ⟨content, h1, rfl, fun i hi => h3 i (by omega)⟩
    refine ⟨⟨w.objs ++ [⟨os k, none⟩], a'⟩, ?_, rfl⟩
    simp only [setup, g1, g2, h3 k (Nat.lt_succ_self k), h2]

theorem Made.unique {C : Class O A} {os os' : Nat → O} {k : Nat} {a b b' : A} (h : Made C k a os b) (h' : Made C k a os' b') :
    b = b' ∧ ∀ i < k, os i = os' i := by
  obtain ⟨c, h1, h2, h3⟩ := h
  obtain ⟨c', g1, g2, g3⟩ := h'
  have key : ∀ i ≤ k, c i = c' i := by
    intro i
    induction i with
    | zero => intro _; rw [h1, g1]
    | succ i ih =>
      intro hi
      have e1 := h3 i (by omega)
      rw [ih (by omega), g3 i (by omega), Option.some.injEq, Prod.mk.injEq] at e1
      exact e1.2.symm
  refine ⟨by rw [← h2, ← g2, key k (le_refl k)], fun i hi => ?_⟩
  have e1 := h3 i hi
  rw [key i (by omega), g3 i hi, Option.some.injEq, Prod.mk.injEq] at e1
  exact e1.1.symm

theorem Runs.congr {C : Class O A} {P : Common} {os os' : Nat → O} {a : A} {es : List Event} {vs : List Value} (h : Runs C P os a es vs)
    (he : ∀ e ∈ es, os e.ctx.scenario = os' e.ctx.scenario) : Runs C P os' a es vs := by
  induction h generalizing os' with
  | done => exact .done _ _
  | @call os a e es view r o a' v vs h1 h2 h3 h4 _ ih =>
    have e1 := he e List.mem_cons_self
    rw [e1] at h1 h3
    refine .call h1 h2 h3 h4 (ih fun e' he' => ?_)
    by_cases hs : e'.ctx.scenario = e.ctx.scenario
    · rw [hs]; simp
    · rw [Function.update_of_ne hs, Function.update_of_ne hs]
      exact he e' (List.mem_cons_of_mem _ he')

theorem setup_made {C : Class O A} {k : Nat} {a : A} {w : World O A} (hk : 0 < k) (h : setup C k a = some w) : ∃ os, Made C k a os w.args := by
  obtain ⟨h1, content, h2, h3, h4⟩ := setup_some h
  refine ⟨fun i => if hi : i < k then (h4 i hi).choose.obj else (h4 0 hk).choose.obj, content, h2, h3, fun i hi => ?_⟩
  simp only [dif_pos hi]
  exact (h4 i hi).choose_spec.2.2

theorem setup_match {C : Class O A} {P : Common} {k : Nat} {a a' : A} {w : World O A} {os : Nat → O} (h : setup C k a = some w) (hm : Made C k a os a') :
    w.objs.length = k ∧ w.args = a' ∧ Match P os w := by
  obtain ⟨h1, content, h2, h3, h4⟩ := setup_some h
  obtain ⟨w', g1, g2⟩ := setup_of hm
  rw [h, Option.some.injEq] at g1
  subst g1
  refine ⟨h1, g2, fun i s hs => ?_⟩
  have hi : i < k := by rw [← h1]; exact (List.getElem?_eq_some_iff.1 hs).1
  obtain ⟨s', e1, e2, e3⟩ := h4 i hi
  have : s' = s := Option.some.inj (e1.symm.trans hs)
  subst this
  refine ⟨?_, fun j hj => by rw [e2] at hj; cases hj⟩
  let os' : Nat → O := fun i => if hi : i < k then (h4 i hi).choose.obj else os i
  have hmade : Made C k a os' (content k) := ⟨content, h2, rfl, fun i hi => by
    simp only [os', dif_pos hi]
    exact (h4 i hi).choose_spec.2.2⟩
  have e4 := (hmade.unique hm).2 i hi
  rw [← e4]
  simp only [os', dif_pos hi]
  exact congrArg Internal.obj (Option.some.inj (e1.symm.trans (h4 i hi).choose_spec.1))

theorem Told.unique {C : Class O A} {P : Common} {a : A} {o : O} {es : List Event} {vs ws : List Value} (h : Told C P a o es vs) (h' : Told C P a o es ws) : vs = ws := by
  induction h generalizing ws with
  | done => cases h'; rfl
  | call h1 h2 h3 h4 _ ih =>
    cases h' with
    | call g1 g2 g3 g4 g5 =>
      have := h2.unique g2
      subst this
      rw [h3, Option.some.injEq, Prod.mk.injEq, Prod.mk.injEq] at g3
      obtain ⟨rfl, rfl, rfl⟩ := g3
      have e : some _ = some _ := ((extract_iff _ _ _).2 h4).symm.trans ((extract_iff _ _ _).2 g4)
      rw [Option.some.inj e, ih g5]

/-- If arguments stay as they are, calls of several scenarios are those of each. -/
theorem runs_told {C : Class O A} {P : Common} (hl : Leaves C) {a : A} : ∀ {es : List Event} {os : Nat → O} {vs : List Value},
    Runs C P os a es vs ↔ vs.length = es.length ∧ ∀ i, Told C P a (os i) (es.filter fun e => e.ctx.scenario = i) (own i es vs)
  | [], os, vs => by
    constructor
    · intro h; cases h; exact ⟨rfl, fun i => .done _⟩
    · rintro ⟨h, -⟩
      obtain rfl := List.length_eq_zero_iff.1 h
      exact .done _ _
  | e :: es, os, vs => by
    constructor
    · intro h
      cases h with
      | @call _ _ _ _ view r o a' v us h1 h2 h3 h4 h5 =>
        obtain rfl := hl.call _ _ _ _ _ _ _ h3
        obtain ⟨g1, g2⟩ := (runs_told hl).1 h5
        refine ⟨by simp [g1], fun i => ?_⟩
        have g3 := g2 i
        by_cases hi : e.ctx.scenario = i
        · subst hi
          simp only [Function.update_self] at g3
          simp only [own, List.zip_cons_cons, List.filter_cons, decide_true, if_true, List.map_cons] at g3 ⊢
          exact .call h1 h2 h3 h4 g3
        · rw [Function.update_of_ne (Ne.symm hi)] at g3
          simpa [own, List.filter_cons, hi] using g3
    · rintro ⟨h1, h2⟩
      cases vs with
      | nil => simp at h1
      | cons v us =>
        have h3 := h2 e.ctx.scenario
        simp only [own, List.zip_cons_cons, List.filter_cons, decide_true, if_true, List.map_cons] at h3
        generalize hfs : List.filter (fun e' => decide (e'.ctx.scenario = e.ctx.scenario)) es = fs at h3
        generalize hxs : List.map (·.2) (List.filter (fun p => decide (p.1.ctx.scenario = e.ctx.scenario)) (es.zip us)) = xs at h3
        cases h3 with
        | @call _ _ _ view r o' a' _ _ c1 c2 c3 c4 c5 =>
          obtain rfl := hl.call _ _ _ _ _ _ _ c3
          refine .call c1 c2 c3 c4 ((runs_told hl).2 ⟨by simpa using h1, fun i => ?_⟩)
          by_cases hi : e.ctx.scenario = i
          · subst hi
            simp only [Function.update_self, own, hfs, hxs]
            exact c5
          · rw [Function.update_of_ne (Ne.symm hi)]
            have := h2 i
            simpa [own, List.filter_cons, hi] using this

theorem made_leaves {C : Class O A} (hl : Leaves C) {k : Nat} {a a' : A} {os : Nat → O} (h : Made C k a os a') : a' = a ∧ ∀ i < k, C.make a = some (os i, a) := by
  obtain ⟨content, h1, h2, h3⟩ := h
  have key : ∀ i ≤ k, content i = a := by
    intro i
    induction i with
    | zero => intro _; exact h1
    | succ i ih =>
      intro hi
      have := hl.make _ _ _ (h3 i (by omega))
      rw [this, ih (by omega)]
  refine ⟨by rw [← h2, key k (le_refl k)], fun i hi => ?_⟩
  have := h3 i hi
  rwa [key i (by omega), key (i + 1) (by omega)] at this

theorem callFunction_ok {f : A → View → Option (Obj × A)} {P : Common} (hk : P.Keyed) {x : Ctx} {s : Option Info} {a : A} (hs : ∀ i, s = some i → Clean P i)
    {v : Value} {s' : Option Info} {a' : A} (h : callFunction f P x s a = .ok (v, s', a')) :
    (∃ view r, Sees P x view ∧ f a view = some (r, a') ∧ Gives P.returns r v) ∧ ∀ i, s' = some i → Clean P i := by
  unfold callFunction at h
  cases h1 : refresh P x (ensure x s) with
  | none => simp only [h1] at h; cases h
  | some i =>
    simp only [h1] at h
    cases h2 : f a i.view with
    | none => simp only [h2] at h; cases h
    | some r =>
      obtain ⟨r, b⟩ := r
      simp only [h2] at h
      cases h3 : extract P.returns r with
      | none => simp only [h3] at h; cases h
      | some w =>
        simp only [h3, Except.ok.injEq, Prod.mk.injEq] at h
        obtain ⟨rfl, rfl, rfl⟩ := h
        obtain ⟨g1, g2⟩ := refresh_some hk (ensure_clean P x hs) h1
        refine ⟨⟨_, r, g1, h2, (extract_iff _ _ _).1 h3⟩, fun j hj => ?_⟩
        obtain rfl := Option.some.inj hj
        exact g2

theorem callFunction_of {f : A → View → Option (Obj × A)} {P : Common} (hk : P.Keyed) {x : Ctx} {s : Option Info} {a : A} (hs : ∀ i, s = some i → Clean P i)
    {v : Value} {view : View} {r : Obj} {a' : A} (h1 : Sees P x view) (h2 : f a view = some (r, a')) (h3 : Gives P.returns r v) :
    ∃ s', callFunction f P x s a = .ok (v, s', a') := by
  unfold callFunction
  cases h4 : refresh P x (ensure x s) with
  | none => exact absurd h1 (refresh_none h4 view)
  | some i =>
    have := (refresh_some hk (ensure_clean P x hs) h4).1.unique h1
    simp only [this, h2, (extract_iff _ _ _).2 h3]
    exact ⟨_, rfl⟩

theorem applyAll_iff {f : A → View → Option (Obj × A)} {P : Common} (hk : P.Keyed) : ∀ {xs : List Ctx} {s : Option Info} {a : A} {vs : List Value},
    (∀ i, s = some i → Clean P i) → ((∃ a', applyAll f P xs s a = .ok (vs, a')) ↔ Applied f P a xs vs)
  | [], s, a, vs, _ => by
    constructor
    · rintro ⟨a', h⟩
      simp only [applyAll, Except.ok.injEq, Prod.mk.injEq] at h
      rw [← h.1]
      exact .done _
    · intro h; cases h; exact ⟨a, rfl⟩
  | x :: xs, s, a, vs, hs => by
    constructor
    · rintro ⟨a', h⟩
      simp only [applyAll] at h
      cases h1 : callFunction f P x s a with
      | error err => simp only [h1] at h; cases h
      | ok r =>
        obtain ⟨v, s', b⟩ := r
        simp only [h1] at h
        obtain ⟨⟨view, r, c2, c3, c4⟩, c5⟩ := callFunction_ok hk hs h1
        cases h2 : applyAll f P xs s' b with
        | error err => simp only [h2] at h; cases h
        | ok r2 =>
          obtain ⟨us, w2⟩ := r2
          simp only [h2, Except.ok.injEq, Prod.mk.injEq] at h
          obtain ⟨rfl, rfl⟩ := h
          exact .call c2 c3 c4 ((applyAll_iff hk c5).1 ⟨_, h2⟩)
    · intro h
      cases h with
      | call c2 c3 c4 c5 =>
        obtain ⟨s', g1⟩ := callFunction_of hk hs c2 c3 c4
        obtain ⟨-, g3⟩ := callFunction_ok hk hs g1
        obtain ⟨w', g4⟩ := (applyAll_iff hk g3).2 c5
        exact ⟨w', by simp only [applyAll, g1, g4]⟩

end Verif.Python
