import Verif.Lemmas.Stepping

/-!
# C45 to C47: timesteps, scenarios and failed steps
-/

namespace Verif.Run

variable {T I S R E : Type}

/-! ## C45: every timestep exactly once, in order -/

/-- **C45** Stepping past the end is an error and changes nothing. -/
theorem C45_past_end (m : Model T I S R E) (st : State S R) (h : m.timesteps.length ≤ st.current) :
    step m st = (st, some .endOfTimesteps) := by
  unfold step
  rw [List.getElem?_eq_none h]

/-- **C45** Within the time domain there is no such error. -/
theorem C45_not_past_end (m : Model T I S R E) (st st' : State S R) (h : step m st = (st', some .endOfTimesteps)) :
    m.timesteps.length ≤ st.current ∧ st' = st := by
  unfold step at h
  rcases ht : m.timesteps[st.current]? with _ | t
  · rw [ht] at h
    cases h
    exact ⟨List.getElem?_eq_none_iff.mp ht, rfl⟩
  · rcases hs : stepAll m.network t m.scenarios st.states with ⟨ss, _ | e⟩
    · rcases hr : m.network.save t m.scenarios ss st.recorders with ⟨r, _ | e⟩ <;> simp only [ht, hs, hr] at h <;> cases h
    · simp only [ht, hs] at h; cases h

/-- **C45** The loop of a run ends. -/
theorem C45_terminates (m : Model T I S R E) (st : State S R) (fuel : Nat) (h : m.timesteps.length - st.current < fuel) :
    ∃ out, loop m fuel st = some out := by
  induction fuel generalizing st with
  | zero => omega
  | succ fuel ih =>
    rcases hs : step m st with ⟨st', _ | e⟩
    · simp only [loop, hs]
      apply ih
      unfold step at hs
      rcases ht : m.timesteps[st.current]? with _ | t
      · rw [ht] at hs; cases hs
      · have hlt : st.current < m.timesteps.length := (List.getElem?_eq_some_iff.mp ht).1
        rcases ha : stepAll m.network t m.scenarios st.states with ⟨ss, _ | e⟩
        · rcases hr : m.network.save t m.scenarios ss st.recorders with ⟨r, _ | e⟩
          · simp only [ht, ha, hr] at hs
            cases hs
            show m.timesteps.length - (st.current + 1) < fuel
            omega
          · simp only [ht, ha, hr] at hs; cases hs
        · simp only [ht, ha] at hs; cases hs
    · cases e <;> simp only [loop, hs] <;> exact ⟨_, rfl⟩

theorem drop_eq_cons {α : Type} {l : List α} {k : Nat} {x : α} (h : l[k]? = some x) : l.drop k = x :: l.drop (k + 1) := by
  obtain ⟨hk, rfl⟩ := List.getElem?_eq_some_iff.mp h
  exact List.drop_eq_getElem_cons hk

/-- **C45** A run ends well exactly if the model can go through the remaining timesteps, each once and in order; it then
leaves the state this gives, with nothing left to do. -/
theorem C45_run (m : Model T I S R E) (st st' : State S R) (fuel : Nat) (hl : m.scenarios.length = st.states.length)
    (hc : st.current ≤ m.timesteps.length) (hf : m.timesteps.length - st.current < fuel) :
    loop m fuel st = some (st', none) ↔ st'.current = m.timesteps.length ∧
      Executes m (m.timesteps.drop st.current) (st.states, st.recorders) (st'.states, st'.recorders) := by
  induction fuel generalizing st with
  | zero => omega
  | succ fuel ih =>
    rcases hs : step m st with ⟨st₁, _ | e⟩
    · simp only [loop, hs]
      obtain ⟨t, ht, h1, h2, h3⟩ := (step_iff hl).mp hs
      have hlt : st.current < m.timesteps.length := (List.getElem?_eq_some_iff.mp ht).1
      rw [ih st₁ (by rw [hl, step_length hs]) (by omega) (by omega), drop_eq_cons ht, h3]
      constructor
      · rintro ⟨hcur, hex⟩
        exact ⟨hcur, .cons h1 h2 hex⟩
      · rintro ⟨hcur, hex⟩
        cases hex with
        | cons g1 g2 g3 =>
          rw [AllAdvanced.unique g1 h1, h2] at g2
          cases g2
          rw [AllAdvanced.unique g1 h1] at g3
          exact ⟨hcur, g3⟩
    · cases e with
      | endOfTimesteps =>
        obtain ⟨h1, rfl⟩ := C45_not_past_end m st st₁ hs
        have hcur : st₁.current = m.timesteps.length := by omega
        simp only [loop, hs, Option.some.injEq, Prod.mk.injEq, and_true]
        rw [List.drop_eq_nil_of_le h1]
        constructor
        · rintro rfl; exact ⟨hcur, .nil _⟩
        · rintro ⟨h2, h3⟩
          rcases st₁ with ⟨c, ss, r⟩
          rcases st' with ⟨c', ss', r'⟩
          simp only at h2 h3 hcur
          cases h3
          rw [h2, hcur]
      | network t e =>
        simp only [loop, hs]
        constructor
        · intro h; cases h
        · rintro ⟨hcur, hex⟩
          exfalso
          rcases ht : m.timesteps[st.current]? with _ | t'
          · unfold step at hs; rw [ht] at hs; cases hs
          · rw [drop_eq_cons ht] at hex
            cases hex with
            | @cons _ _ _ ss₁ _ r₁ _ g1 g2 _ =>
              have := (step_iff (st' := ⟨st.current + 1, ss₁, r₁⟩) hl).mpr ⟨t', ht, g1, g2, rfl⟩
              rw [hs] at this; cases this
      | recorder t e =>
        simp only [loop, hs]
        constructor
        · intro h; cases h
        · rintro ⟨hcur, hex⟩
          exfalso
          rcases ht : m.timesteps[st.current]? with _ | t'
          · unfold step at hs; rw [ht] at hs; cases hs
          · rw [drop_eq_cons ht] at hex
            cases hex with
            | @cons _ _ _ ss₁ _ r₁ _ g1 g2 _ =>
              have := (step_iff (st' := ⟨st.current + 1, ss₁, r₁⟩) hl).mpr ⟨t', ht, g1, g2, rfl⟩
              rw [hs] at this; cases this

/-- `k` successful steps. -/
inductive Steps (m : Model T I S R E) : Nat → State S R → State S R → Prop
  | zero (st : State S R) : Steps m 0 st st
  | succ {k : Nat} {st st₁ st' : State S R} : step m st = (st₁, none) → Steps m k st₁ st' → Steps m (k + 1) st st'

theorem loop_mono (m : Model T I S R E) (fuel more : Nat) (st : State S R) (out) (h : loop m fuel st = some out) :
    loop m (fuel + more) st = some out := by
  induction fuel generalizing st with
  | zero => cases h
  | succ fuel ih =>
    rw [Nat.add_right_comm]
    rcases hs : step m st with ⟨st', _ | e⟩
    · simp only [loop, hs] at h ⊢; exact ih st' h
    · cases e <;> simp only [loop, hs] at h ⊢ <;> exact h

/-- **C45** Stopping after any number of steps and running on gives the result of the uninterrupted run, whether that
ends well or with an error. -/
theorem C45_interrupted (m : Model T I S R E) (k fuel : Nat) (st st₁ : State S R) (out) (h : Steps m k st st₁) :
    loop m fuel st₁ = some out → loop m (fuel + k) st = some out := by
  intro hl
  induction h with
  | zero => exact hl
  | succ hs _ ih =>
    rw [← Nat.add_assoc]
    simp only [loop, hs]
    exact ih hl

/-- **C45** The result does not depend on the bound on the number of iterations. -/
theorem C45_fuel (m : Model T I S R E) (fuel fuel' : Nat) (st : State S R) (out out') (h : loop m fuel st = some out)
    (h' : loop m fuel' st = some out') : out = out' := by
  have h1 := loop_mono m fuel fuel' st out h
  have h2 := loop_mono m fuel' fuel st out' h'
  rw [Nat.add_comm] at h2
  rw [h1] at h2
  exact Option.some.inj h2

/-- **C45** An error of a run is the error of a step at the timestep the state then points to, after all the timesteps
before it were gone through. -/
theorem C45_error (m : Model T I S R E) (st st' : State S R) (fuel : Nat) (e : StepError T E) (hl : m.scenarios.length = st.states.length)
    (h : loop m fuel st = some (st', some e)) :
    ∃ st₁ : State S R, Executes m ((m.timesteps.drop st.current).take (st₁.current - st.current)) (st.states, st.recorders) (st₁.states, st₁.recorders) ∧
      step m st₁ = (st', some e) ∧ st'.current = st₁.current ∧ st.current ≤ st₁.current ∧
      ∃ t, m.timesteps[st'.current]? = some t ∧ (∃ source, e = .network t source ∨ e = .recorder t source) := by
  induction fuel generalizing st with
  | zero => cases h
  | succ fuel ih =>
    rcases hs : step m st with ⟨st₂, _ | e₂⟩
    · simp only [loop, hs] at h
      obtain ⟨t, ht, h1, h2, h3⟩ := (step_iff hl).mp hs
      obtain ⟨st₁, g1, g2, g3, g4, g5⟩ := ih st₂ (by rw [hl, step_length hs]) h
      refine ⟨st₁, ?_, g2, g3, by omega, g5⟩
      rw [h3] at g1
      rw [drop_eq_cons ht, show st₁.current - st.current = (st₁.current - (st.current + 1)) + 1 by omega, List.take_succ_cons]
      exact .cons h1 h2 g1
    · have hcur : st₂.current = st.current := by
        unfold step at hs
        rcases ht : m.timesteps[st.current]? with _ | t
        · rw [ht] at hs; cases hs; rfl
        · rcases ha : stepAll m.network t m.scenarios st.states with ⟨ss, _ | e⟩
          · rcases hr : m.network.save t m.scenarios ss st.recorders with ⟨r, _ | e⟩
            · simp only [ht, ha, hr] at hs; cases hs
            · simp only [ht, ha, hr] at hs; cases hs; rfl
          · simp only [ht, ha] at hs; cases hs; rfl
      have key : e₂ ≠ .endOfTimesteps → ∃ t, m.timesteps[st₂.current]? = some t ∧ (∃ source, e₂ = .network t source ∨ e₂ = .recorder t source) := by
        intro hne
        rw [hcur]
        unfold step at hs
        rcases ht : m.timesteps[st.current]? with _ | t
        · rw [ht] at hs; cases hs; exact absurd rfl hne
        · refine ⟨t, rfl, ?_⟩
          rcases ha : stepAll m.network t m.scenarios st.states with ⟨ss, _ | e⟩
          · rcases hr : m.network.save t m.scenarios ss st.recorders with ⟨r, _ | e⟩
            · simp only [ht, ha, hr] at hs; cases hs
            · simp only [ht, ha, hr] at hs; cases hs; exact ⟨e, .inr rfl⟩
          · simp only [ht, ha] at hs; cases hs; exact ⟨e, .inl rfl⟩
      cases e₂ with
      | endOfTimesteps => simp only [loop, hs] at h; cases h
      | network t src =>
        simp only [loop, hs] at h; cases h
        exact ⟨st, by rw [Nat.sub_self, List.take_zero]; exact .nil _, hs, hcur, Nat.le_refl _, key (by intro h; cases h)⟩
      | recorder t src =>
        simp only [loop, hs] at h; cases h
        exact ⟨st, by rw [Nat.sub_self, List.take_zero]; exact .nil _, hs, hcur, Nat.le_refl _, key (by intro h; cases h)⟩

/-! ### A run seen through a log -/

/-- The same network, each scenario of which keeps a log of the timesteps it has completed. -/
def logged (net : Network T I S R E) : Network T I (S × List T) R E where
  compute t i s := ((( net.compute t i s.1).1, s.2), (net.compute t i s.1).2)
  solve t i s := (((net.solve t i s.1).1, s.2), (net.solve t i s.1).2)
  after t i s := (((net.after t i s.1).1, s.2 ++ [t]), (net.after t i s.1).2)
  save t is ss r := net.save t is (ss.map (·.1)) r

/-- **C45** After a run that ends well, the log of every scenario is the list of timesteps. -/
theorem C45_log (m : Model T I S R E) (st st' : State (S × List T) R) (fuel : Nat) (hl : m.scenarios.length = st.states.length) (h0 : st.current = 0)
    (hf : m.timesteps.length < fuel) (hlog : ∀ s ∈ st.states, s.2 = [])
    (h : loop { m with network := logged m.network } fuel st = some (st', none)) : ∀ s ∈ st'.states, s.2 = m.timesteps := by
  have key : ∀ ts : List T, ∀ x y : List (S × List T) × R, Executes { m with network := logged m.network } ts x y →
      ∀ done, (∀ s ∈ x.1, s.2 = done) → ∀ s ∈ y.1, s.2 = done ++ ts := by
    intro ts x y hex
    induction hex with
    | nil => intro done hd s hs; rw [hd s hs]; simp
    | @cons t ts ss ss₁ r r₁ y h1 _ _ ih =>
      intro done hd
      have h2 : ∀ s ∈ ss₁, s.2 = done ++ [t] := by
        have : ∀ (is : List I) (a b : List (S × List T)), AllAdvanced (logged m.network) t is a b → (∀ s ∈ a, s.2 = done) → ∀ s ∈ b, s.2 = done ++ [t] := by
          intro is a b hab
          induction hab with
          | nil => intro _ s hs; cases hs
          | @cons i is s s' a b g1 _ ih2 =>
            intro ha x hx
            rcases List.mem_cons.mp hx with rfl | hx
            · obtain ⟨s₁, s₂, e1, e2, e3⟩ := g1
              simp only [logged, Prod.mk.injEq] at e1 e2 e3
              rw [← e3.1, ← e2.1, ← e1.1]
              simp only
              rw [ha s List.mem_cons_self]
            · exact ih2 (fun z hz => ha z (List.mem_cons_of_mem _ hz)) x hx
        exact this _ _ _ h1 hd
      intro s hs
      rw [ih (done ++ [t]) h2 s hs, List.append_assoc]
      rfl
  have := (C45_run { m with network := logged m.network } st st' fuel hl (by rw [h0]; exact Nat.zero_le _) (by rw [h0]; exact hf)).mp h
  rw [h0] at this
  have := key _ _ _ this.2 [] hlog
  simpa using this

/-! ## C46: scenarios are independent -/

/-- **C46** Advancing all scenarios succeeds exactly if every scenario can be advanced on its own, and gives each the
state it reaches on its own. -/
theorem C46_step (net : Network T I S R E) (t : T) (is : List I) (ss ss' : List S) (hl : is.length = ss.length) :
    stepAll net t is ss = (ss', none) ↔
      ss'.length = ss.length ∧ ∀ (k : Nat) (i : I) (s s' : S), is[k]? = some i → ss[k]? = some s → ss'[k]? = some s' → Advanced net t i s s' := by
  rw [stepAll_iff hl]
  constructor
  · intro h
    refine ⟨h.length.2, ?_⟩
    induction h with
    | nil => intro k i s s' h1; simp at h1
    | cons h1 _ ih =>
      intro k i s s' g1 g2 g3
      cases k with
      | zero => simp only [List.getElem?_cons_zero, Option.some.injEq] at g1 g2 g3; rw [← g1, ← g2, ← g3]; exact h1
      | succ k =>
        simp only [List.getElem?_cons_succ] at g1 g2 g3
        exact ih (by simpa using hl) k i s s' g1 g2 g3
  · rintro ⟨h1, h2⟩
    induction is generalizing ss ss' with
    | nil =>
      cases ss with
      | nil => cases ss' with
        | nil => exact .nil
        | cons _ _ => cases h1
      | cons _ _ => cases hl
    | cons i is ih =>
      cases ss with
      | nil => cases hl
      | cons s ss =>
        cases ss' with
        | nil => cases h1
        | cons s' ss' =>
          exact .cons (h2 0 i s s' rfl rfl rfl) (ih ss ss' (by simpa using hl) (by simpa using h1) fun k => h2 (k + 1))

/-- **C46** In a run each scenario goes through the timesteps as if it were alone. -/
theorem C46_alone (m : Model T I S R E) (ts : List T) (x y : List S × R) (h : Executes m ts x y) (k : Nat) (i : I) (s : S)
    (hi : m.scenarios[k]? = some i) (hs : x.1[k]? = some s) : ∃ s', y.1[k]? = some s' ∧ Alone m.network i ts s s' := by
  induction h generalizing s with
  | nil => exact ⟨s, hs, .nil s⟩
  | @cons t ts ss ss₁ r r₁ y h1 _ _ ih =>
    have hk : k < ss.length := (List.getElem?_eq_some_iff.mp hs).1
    have hk₁ : k < ss₁.length := by rw [h1.length.2]; exact hk
    have ha := ((C46_step m.network t m.scenarios ss ss₁ h1.length.1).mp ((stepAll_iff h1.length.1).mpr h1)).2 k i s ss₁[k] hi hs
      (List.getElem?_eq_getElem hk₁)
    obtain ⟨s', g1, g2⟩ := ih ss₁[k] (List.getElem?_eq_getElem hk₁)
    exact ⟨s', g1, .cons ha g2⟩

/-- **C46** The result of a scenario does not depend on which other scenarios there are, where it stands among them, or
what is recorded: two runs of the same network over the same timesteps agree on every scenario they share. -/
theorem C46_others (m m' : Model T I S R E) (st st' : State S R) (fin fin' : State S R) (fuel fuel' : Nat)
    (hn : ∀ t i s, m.network.compute t i s = m'.network.compute t i s ∧ m.network.solve t i s = m'.network.solve t i s ∧
      m.network.after t i s = m'.network.after t i s)
    (ht : m.timesteps = m'.timesteps) (h0 : st.current = 0) (h0' : st'.current = 0) (hl : m.scenarios.length = st.states.length)
    (hl' : m'.scenarios.length = st'.states.length) (hf : m.timesteps.length < fuel) (hf' : m.timesteps.length < fuel')
    (hrun : loop m fuel st = some (fin, none)) (hrun' : loop m' fuel' st' = some (fin', none)) (k l : Nat) (i : I) (s : S)
    (hk : m.scenarios[k]? = some i ∧ st.states[k]? = some s) (hk' : m'.scenarios[l]? = some i ∧ st'.states[l]? = some s) :
    ∃ r, fin.states[k]? = some r ∧ fin'.states[l]? = some r := by
  have h1 := ((C45_run m st fin fuel hl (by omega) (by omega)).mp hrun).2
  have h2 := ((C45_run m' st' fin' fuel' hl' (by omega) (by rw [← ht]; omega)).mp hrun').2
  rw [h0] at h1
  rw [h0', ← ht] at h2
  obtain ⟨a, ha1, ha2⟩ := C46_alone m _ _ _ h1 k i s hk.1 hk.2
  obtain ⟨b, hb1, hb2⟩ := C46_alone m' _ _ _ h2 l i s hk'.1 hk'.2
  have conv : ∀ ts s r, Alone m'.network i ts s r → Alone m.network i ts s r := by
    intro ts s r h
    induction h with
    | nil s => exact .nil s
    | @cons t _ s _ _ h1 _ ih =>
      obtain ⟨s₁, s₂, e1, e2, e3⟩ := h1
      exact .cons ⟨s₁, s₂, by rw [(hn _ _ _).1, e1], by rw [(hn _ _ _).2.1, e2], by rw [(hn _ _ _).2.2, e3]⟩ ih
  refine ⟨a, ha1, ?_⟩
  rw [Alone.unique ha2 (conv _ _ _ hb2)]
  exact hb1

/-! ### Parallel steps -/

/-- How far a scenario has come. -/
def Progress (net : Network T I S R E) (t : T) (i : I) (s : S) (c : Nat × S) : Prop :=
  match c.1 with
  | 0 => c.2 = s
  | 1 => net.compute t i s = (c.2, none)
  | 2 => ∃ s₁, net.compute t i s = (s₁, none) ∧ net.solve t i s₁ = (c.2, none)
  | 3 => Advanced net t i s c.2
  | _ => False

theorem advance_progress {net : Network T I S R E} {t : T} {i : I} {s : S} {c c' : Nat × S} (h : Progress net t i s c)
    (ha : advance net t i c = some c') : Progress net t i s c' ∧ c'.1 = min 3 (c.1 + 1) := by
  rcases c with ⟨n, x⟩
  rcases n with _ | _ | _ | _ | n
  · have h : x = s := h
    subst h
    rcases hc : net.compute t i x with ⟨y, _ | e⟩
    · simp only [advance, hc, Option.some.injEq] at ha; subst ha; exact ⟨hc, rfl⟩
    · simp only [advance, hc] at ha; cases ha
  · rcases hc : net.solve t i x with ⟨y, _ | e⟩
    · simp only [advance, hc, Option.some.injEq] at ha; subst ha; exact ⟨⟨x, h, hc⟩, rfl⟩
    · simp only [advance, hc] at ha; cases ha
  · obtain ⟨s₁, h1, h2⟩ := h
    rcases hc : net.after t i x with ⟨y, _ | e⟩
    · simp only [advance, hc, Option.some.injEq] at ha; subst ha; exact ⟨⟨s₁, x, h1, h2, hc⟩, rfl⟩
    · simp only [advance, hc] at ha; cases ha
  · simp only [advance, Option.some.injEq] at ha; subst ha; exact ⟨h, rfl⟩
  · exact absurd h (by intro h; exact h)

/-- Progress of all scenarios. -/
inductive AllProgress (net : Network T I S R E) (t : T) : List I → List S → List (Nat × S) → Prop
  | nil : AllProgress net t [] [] []
  | cons {i is s ss c cs} : Progress net t i s c → AllProgress net t is ss cs → AllProgress net t (i :: is) (s :: ss) (c :: cs)

theorem fire_progress {net : Network T I S R E} {t : T} {is : List I} {ss : List S} {cs cs' : List (Nat × S)} {k : Nat}
    (h : AllProgress net t is ss cs) (hf : fire net t is cs k = some cs') : AllProgress net t is ss cs' := by
  induction h generalizing k cs' with
  | nil => cases k <;> (simp only [fire, Option.some.injEq] at hf; subst hf; exact .nil)
  | @cons i is s ss c cs h1 h2 ih =>
    cases k with
    | zero =>
      simp only [fire, Option.map_eq_some_iff] at hf
      obtain ⟨c', hc, rfl⟩ := hf
      exact .cons (advance_progress h1 hc).1 h2
    | succ k =>
      simp only [fire, Option.map_eq_some_iff] at hf
      obtain ⟨cs', hc, rfl⟩ := hf
      exact .cons h1 (ih hc)

theorem fireAll_progress {net : Network T I S R E} {t : T} {is : List I} {ss : List S} {cs cs' : List (Nat × S)} {ks : List Nat}
    (h : AllProgress net t is ss cs) (hf : fireAll net t is cs ks = some cs') : AllProgress net t is ss cs' := by
  induction ks generalizing cs with
  | nil => simp only [fireAll, Option.some.injEq] at hf; subst hf; exact h
  | cons k ks ih =>
    rcases hk : fire net t is cs k with _ | cs₁
    · simp only [fireAll, hk] at hf; cases hf
    · simp only [fireAll, hk] at hf; exact ih (fire_progress h hk) hf

theorem start_progress (net : Network T I S R E) (t : T) (is : List I) (ss : List S) (hl : is.length = ss.length) :
    AllProgress net t is ss (ss.map fun s => (0, s)) := by
  induction is generalizing ss with
  | nil => cases ss with
    | nil => exact .nil
    | cons _ _ => cases hl
  | cons i is ih => cases ss with
    | nil => cases hl
    | cons s ss => exact .cons rfl (ih ss (by simpa using hl))

theorem finished {net : Network T I S R E} {t : T} {is : List I} {ss : List S} {cs : List (Nat × S)} (h : AllProgress net t is ss cs)
    (hd : ∀ c ∈ cs, c.1 = 3) : AllAdvanced net t is ss (cs.map (·.2)) := by
  induction h with
  | nil => exact .nil
  | @cons i is s ss c cs h1 _ ih =>
    refine .cons ?_ (ih fun c hc => hd c (List.mem_cons_of_mem _ hc))
    have : c.1 = 3 := hd c List.mem_cons_self
    rcases c with ⟨n, x⟩
    simp only at this
    subst this
    exact h1

/-- **C46** However the work of the threads is interleaved, a parallel step that comes to its end leaves the states the
sequential step leaves. -/
theorem C46_parallel (net : Network T I S R E) (t : T) (is : List I) (ss : List S) (schedule : List Nat) (cs : List (Nat × S))
    (hl : is.length = ss.length) (h : stepPar net t is ss schedule = some cs) (hd : ∀ c ∈ cs, c.1 = 3) :
    stepAll net t is ss = (cs.map (·.2), none) :=
  (stepAll_iff hl).mpr (finished (fireAll_progress (start_progress net t is ss hl) h) hd)

theorem advance_ok {net : Network T I S R E} {t : T} {i : I} {s s' : S} {c : Nat × S} (h : Progress net t i s c) (ha : Advanced net t i s s') :
    ∃ c', advance net t i c = some c' := by
  obtain ⟨s₁, s₂, e1, e2, e3⟩ := ha
  rcases c with ⟨n, x⟩
  rcases n with _ | _ | _ | _ | n
  · have h : x = s := h
    subst h
    exact ⟨(1, s₁), by simp only [advance, e1]⟩
  · have h : net.compute t i s = (x, none) := h
    rw [h] at e1; cases e1
    exact ⟨(2, s₂), by simp only [advance, e2]⟩
  · obtain ⟨a, h1, h2⟩ := h
    rw [h1] at e1; cases e1
    rw [h2] at e2; cases e2
    exact ⟨(3, s'), by simp only [advance, e3]⟩
  · exact ⟨_, rfl⟩
  · exact ⟨_, rfl⟩

theorem fire_ok {net : Network T I S R E} {t : T} {is : List I} {ss ss' : List S} {cs : List (Nat × S)} (h : AllProgress net t is ss cs)
    (ha : AllAdvanced net t is ss ss') (k : Nat) : ∃ cs', fire net t is cs k = some cs' ∧
      ∀ l, (cs'[l]?).map (·.1) = (cs[l]?).map (fun c => if l = k then min 3 (c.1 + 1) else c.1) := by
  induction h generalizing k ss' with
  | nil => cases k <;> exact ⟨[], rfl, by intro l; simp⟩
  | @cons i is s ss c cs h1 h2 ih =>
    cases ha with
    | cons g1 g2 =>
      cases k with
      | zero =>
        obtain ⟨c', hc⟩ := advance_ok h1 g1
        refine ⟨c' :: cs, by simp [fire, hc], ?_⟩
        intro l
        cases l with
        | zero => simp [(advance_progress h1 hc).2]
        | succ l => simp
      | succ k =>
        obtain ⟨cs', hc, hcount⟩ := ih g2 k
        refine ⟨c :: cs', by simp [fire, hc], ?_⟩
        intro l
        cases l with
        | zero => simp
        | succ l => simpa using hcount l

theorem fireAll_ok {net : Network T I S R E} {t : T} {is : List I} {ss ss' : List S} (ks : List Nat) {cs : List (Nat × S)}
    (h : AllProgress net t is ss cs) (ha : AllAdvanced net t is ss ss') : ∃ cs', fireAll net t is cs ks = some cs' ∧
      ∀ l, (∀ c, cs[l]? = some c → c.1 ≤ 3) → (cs'[l]?).map (·.1) = (cs[l]?).map (fun c => min 3 (c.1 + ks.count l)) := by
  induction ks generalizing cs with
  | nil =>
    refine ⟨cs, rfl, ?_⟩
    intro l hl
    rcases hc : cs[l]? with _ | c
    · rfl
    · have := hl c hc
      simp only [Option.map_some, List.count_nil, Nat.add_zero, Option.some.injEq]
      omega
  | cons k ks ih =>
    obtain ⟨cs₁, h1, h2⟩ := fire_ok h ha k
    obtain ⟨cs', h3, h4⟩ := ih (fire_progress h h1)
    refine ⟨cs', by simp only [fireAll, h1, h3], ?_⟩
    intro l hl
    have h5 := h2 l
    rcases hc : cs[l]? with _ | c
    · rw [hc] at h5
      have hn : cs₁[l]? = none := by simpa using h5
      rw [h4 l (by intro c hc; rw [hn] at hc; cases hc), hn]
      rfl
    · rw [hc] at h5
      simp only [Option.map_some] at h5
      rcases hc₁ : cs₁[l]? with _ | c₁
      · rw [hc₁] at h5; cases h5
      · rw [hc₁] at h5
        simp only [Option.map_some, Option.some.injEq] at h5
        have hle := hl c hc
        rw [h4 l (by
          intro d hd
          rw [hc₁] at hd; cases hd
          rw [h5]; split <;> omega), hc₁]
        simp only [Option.map_some, Option.some.injEq, h5, List.count_cons]
        by_cases hlk : l = k
        · subst hlk; simp only [if_true, beq_self_eq_true]; omega
        · rw [if_neg hlk, if_neg (by simpa using fun h => hlk h.symm)]; omega

/-- **C46** If no scenario fails, no schedule panics, and one that gives every scenario its three turns ends with the
states of the sequential step. -/
theorem C46_parallel_ends (net : Network T I S R E) (t : T) (is : List I) (ss ss' : List S) (schedule : List Nat) (hl : is.length = ss.length)
    (h : stepAll net t is ss = (ss', none)) :
    ∃ cs, stepPar net t is ss schedule = some cs ∧ ((∀ k < ss.length, 3 ≤ schedule.count k) → cs = ss'.map fun s => (3, s)) := by
  have ha := (stepAll_iff hl).mp h
  have hp := start_progress net t is ss hl
  obtain ⟨cs, h1, h2⟩ := fireAll_ok schedule hp ha
  refine ⟨cs, h1, ?_⟩
  intro hk
  have h3 : ∀ l, (cs[l]?).map (·.1) = (ss[l]?).map (fun _ => min 3 (schedule.count l)) := by
    intro l
    rw [h2 l (by
      intro c hc
      simp only [List.getElem?_map, Option.map_eq_some_iff] at hc
      obtain ⟨s, _, rfl⟩ := hc
      exact Nat.zero_le _)]
    simp [List.getElem?_map, Function.comp_def]
  have hd : ∀ c ∈ cs, c.1 = 3 := by
    intro c hc
    obtain ⟨l, hl', rfl⟩ := List.getElem_of_mem hc
    have h4 := h3 l
    rw [List.getElem?_eq_getElem hl'] at h4
    rcases hs : ss[l]? with _ | s
    · rw [hs] at h4; cases h4
    · rw [hs] at h4
      simp only [Option.map_some, Option.some.injEq] at h4
      have := hk l (List.getElem?_eq_some_iff.mp hs).1
      rw [h4]; omega
  have h5 := C46_parallel net t is ss schedule cs hl h1 hd
  rw [h] at h5
  cases h5
  rw [List.map_map]
  symm
  conv_rhs => rw [← List.map_id cs]
  apply List.map_congr_left
  intro c hc
  rcases c with ⟨n, x⟩
  have : n = 3 := hd _ hc
  subst this
  rfl

/-- **C46** If some scenario fails in the sequential step, no schedule comes to its end. -/
theorem C46_parallel_fails (net : Network T I S R E) (t : T) (is : List I) (ss ss' : List S) (e : E) (schedule : List Nat)
    (hl : is.length = ss.length) (h : stepAll net t is ss = (ss', some e)) :
    ¬ ∃ cs, stepPar net t is ss schedule = some cs ∧ ∀ c ∈ cs, c.1 = 3 := by
  rintro ⟨cs, h1, h2⟩
  rw [C46_parallel net t is ss schedule cs hl h1 h2] at h
  cases h

/-- **C46** A step with one solver for all scenarios, if it solves each scenario as the single solver does, gives the
states of the sequential step, and panics exactly if some scenario fails. -/
theorem C46_multi (net : Network T I S R E) (solveAll : T → List S → List S × Option E) (t : T) (is : List I) (ss : List S)
    (hl : is.length = ss.length)
    (hs : ∀ xs ys : List S, xs.length = is.length → (solveAll t xs = (ys, none) ↔
      (is.zip xs).map (fun p => net.solve t p.1 p.2) = ys.map fun y => (y, none))) (ss' : List S) :
    stepMulti net solveAll t is ss = some ss' ↔ stepAll net t is ss = (ss', none) := by
  have phase : ∀ (f : I → S → S × Option E) (is : List I) (xs ys : List S), xs.length = is.length →
      ((if ((is.zip xs).any fun p => (f p.1 p.2).2.isSome) then none else some ((is.zip xs).map fun p => (f p.1 p.2).1)) = some ys ↔
        (is.zip xs).map (fun p => f p.1 p.2) = ys.map fun y => (y, none)) := by
    intro f is
    induction is with
    | nil =>
      intro xs ys hx
      cases xs with
      | nil => cases ys <;> simp
      | cons _ _ => cases hx
    | cons i is ih =>
      intro xs ys hx
      cases xs with
      | nil => cases hx
      | cons x xs =>
        have hi := fun ys => ih xs ys (by simpa using hx)
        cases ys with
        | nil =>
          simp only [List.zip_cons_cons, List.map_cons, List.map_nil]
          constructor
          · intro h
            exfalso
            split at h
            · cases h
            · simp at h
          · intro h; cases h
        | cons y ys =>
          have h1 := hi ys
          rcases hf : f i x with ⟨y', _ | e⟩
          · simp only [List.zip_cons_cons, List.any_cons, hf, Option.isSome_none, Bool.false_or, List.map_cons, List.cons.injEq, Prod.mk.injEq,
              and_true, ← h1]
            by_cases hany : ((is.zip xs).any fun p => (f p.1 p.2).2.isSome) = true
            · rw [if_pos hany, if_pos hany]; simp
            · rw [if_neg hany, if_neg hany]; simp
          · simp [hf]
  have glue : ∀ (is : List I) (a b c d : List S), a.length = is.length → (is.zip a).map (fun p => net.compute t p.1 p.2) = b.map (fun y => (y, none)) →
      (is.zip b).map (fun p => net.solve t p.1 p.2) = c.map (fun y => (y, none)) → (is.zip c).map (fun p => net.after t p.1 p.2) = d.map (fun y => (y, none)) →
      AllAdvanced net t is a d := by
    intro is
    induction is with
    | nil =>
      intro a b c d h0 h1 h2 h3
      cases a with
      | nil =>
        simp only [List.zip_nil_left, List.map_nil] at h1 h2 h3
        have h3' := congrArg List.length h3
        cases d with
        | nil => exact .nil
        | cons _ _ => simp at h3'
      | cons _ _ => cases h0
    | cons i is ih =>
      intro a b c d h0 h1 h2 h3
      cases a with
      | nil => cases h0
      | cons a as =>
        cases b with
        | nil => simp at h1
        | cons b bs =>
          cases c with
          | nil => simp at h2
          | cons c cs =>
            cases d with
            | nil => simp at h3
            | cons d ds =>
              simp only [List.zip_cons_cons, List.map_cons, List.cons.injEq] at h1 h2 h3
              exact .cons ⟨b, c, h1.1, h2.1, h3.1⟩ (ih as bs cs ds (by simpa using h0) h1.2 h2.2 h3.2)
  have unglue : ∀ (is : List I) (a d : List S), AllAdvanced net t is a d → ∃ b c : List S, b.length = is.length ∧ c.length = is.length ∧
      (is.zip a).map (fun p => net.compute t p.1 p.2) = b.map (fun y => (y, none)) ∧
      (is.zip b).map (fun p => net.solve t p.1 p.2) = c.map (fun y => (y, none)) ∧ (is.zip c).map (fun p => net.after t p.1 p.2) = d.map (fun y => (y, none)) := by
    intro is a d h
    induction h with
    | nil => exact ⟨[], [], rfl, rfl, rfl, rfl, rfl⟩
    | @cons i is s s' ss ss' h1 _ ih =>
      obtain ⟨b, c, l1, l2, e1, e2, e3⟩ := ih
      obtain ⟨x, y, f1, f2, f3⟩ := h1
      exact ⟨x :: b, y :: c, by simp [l1], by simp [l2], by simp [f1, e1], by simp [f2, e2], by simp [f3, e3]⟩
  have len : ∀ (f : I → S → S × Option E) (xs ys : List S), xs.length = is.length → (is.zip xs).map (fun p => f p.1 p.2) = ys.map (fun y => (y, none)) →
      ys.length = is.length := by
    intro f xs ys hx h
    have := congrArg List.length h
    simp only [List.length_map, List.length_zip] at this
    omega
  rw [stepAll_iff hl]
  unfold stepMulti
  constructor
  · intro h
    rcases h1 : (if ((is.zip ss).any fun p => (net.compute t p.1 p.2).2.isSome) then none else some ((is.zip ss).map fun p => (net.compute t p.1 p.2).1)) with _ | b
    · simp only [h1] at h; cases h
    · simp only [h1] at h
      have e1 := (phase (net.compute t) is ss b hl.symm).mp h1
      have l1 := len (net.compute t) ss b hl.symm e1
      rcases h2 : solveAll t b with ⟨c, _ | e⟩
      · simp only [h2] at h
        have e2 := (hs b c l1).mp h2
        have l2 := len (net.solve t) b c l1 e2
        exact glue is ss b c ss' hl.symm e1 e2 ((phase (net.after t) is c ss' l2).mp h)
      · simp only [h2] at h; cases h
  · intro h
    obtain ⟨b, c, l1, l2, e1, e2, e3⟩ := unglue is ss ss' h
    have h1 := (phase (net.compute t) is ss b hl.symm).mpr e1
    have h2 := (hs b c l1).mpr e2
    have h3 := (phase (net.after t) is c ss' l2).mpr e3
    simp only [h1, h2]
    exact h3

/-! ## C47: failed steps -/

/-- **C47, partial.** After a failed step the model still points to the same timestep. If a scenario failed, the recorders
are untouched, and so are the scenarios after it, but those before it have been advanced. Missing: that no scenario has
been advanced, which is refuted below. -/
theorem C47_failed_partial (m : Model T I S R E) (st st' : State S R) (t : T) (e : E) (hl : m.scenarios.length = st.states.length)
    (h : step m st = (st', some (.network t e))) :
    st'.current = st.current ∧ st'.recorders = st.recorders ∧ st'.states.length = st.states.length ∧ m.timesteps[st.current]? = some t ∧
      ∃ (k : Nat) (i : I) (s : S), m.scenarios[k]? = some i ∧ st.states[k]? = some s ∧
        (st'.states[k]?, some e) = (some (scenarioStep m.network t i s).1, (scenarioStep m.network t i s).2) ∧
        (∀ j, k < j → st'.states[j]? = st.states[j]?) ∧
        (∀ (j : Nat) (i : I) (a b : S), j < k → m.scenarios[j]? = some i → st.states[j]? = some a → st'.states[j]? = some b → Advanced m.network t i a b) := by
  have hlen := step_length h
  unfold step at h
  rcases ht : m.timesteps[st.current]? with _ | t'
  · rw [ht] at h; cases h
  · rcases hs : stepAll m.network t' m.scenarios st.states with ⟨ss, _ | e'⟩
    · rcases hr : m.network.save t' m.scenarios ss st.recorders with ⟨r, _ | e'⟩ <;> simp only [ht, hs, hr] at h <;> cases h
    · simp only [ht, hs] at h
      cases h
      refine ⟨rfl, rfl, hlen, rfl, ?_⟩
      have key : ∀ (is : List I) (xs : List S), is.length = xs.length → ∀ ys, stepAll m.network t is xs = (ys, some e) →
          ∃ (k : Nat) (i : I) (s : S), is[k]? = some i ∧ xs[k]? = some s ∧
            (ys[k]?, some e) = (some (scenarioStep m.network t i s).1, (scenarioStep m.network t i s).2) ∧
            (∀ j, k < j → ys[j]? = xs[j]?) ∧
            (∀ (j : Nat) (i : I) (a b : S), j < k → is[j]? = some i → xs[j]? = some a → ys[j]? = some b → Advanced m.network t i a b) := by
        intro is
        induction is with
        | nil => intro xs hx ys h; cases xs <;> simp only [stepAll] at h <;> cases h
        | cons i is ih =>
          intro xs hx ys h
          cases xs with
          | nil => cases hx
          | cons x xs =>
            rcases h1 : scenarioStep m.network t i x with ⟨x', _ | e'⟩
            · rcases h2 : stepAll m.network t is xs with ⟨zs, e'⟩
              simp only [stepAll, h1, h2] at h
              cases h
              obtain ⟨k, i', s, g1, g2, g3, g4, g5⟩ := ih xs (by simpa using hx) zs h2
              refine ⟨k + 1, i', s, g1, g2, g3, ?_, ?_⟩
              · intro j hj
                cases j with
                | zero => omega
                | succ j => exact g4 j (by omega)
              · intro j i₂ a b hj f1 f2 f3
                cases j with
                | zero =>
                  simp only [List.getElem?_cons_zero, Option.some.injEq] at f1 f2 f3
                  rw [← f1, ← f2, ← f3]
                  exact scenarioStep_iff.mp h1
                | succ j => exact g5 j i₂ a b (by omega) f1 f2 f3
            · simp only [stepAll, h1] at h
              cases h
              refine ⟨0, i, x, rfl, rfl, by rw [h1]; rfl, ?_, ?_⟩
              · intro j hj
                cases j with
                | zero => omega
                | succ j => rfl
              · intro j _ _ _ hj; omega
      exact key m.scenarios st.states hl ss hs

/-- A network whose scenarios count the steps they have gone through. Scenario 1 fails. -/
def counting : Network Nat Nat Nat Nat Unit where
  compute _ i s := (s, if i = 1 then some () else none)
  solve _ _ s := (s, none)
  after _ _ s := (s + 1, none)
  save _ _ _ r := (r + 1, none)

/-- **C47, refuted.** The first scenario has gone through the failed step, and goes through it again when the step is
tried again: one timestep, two steps. -/
theorem C47_not_atomic_refuted :
    ∃ (m : Model Nat Nat Nat Nat Unit) (st st₁ st₂ : State Nat Nat), m = ⟨[100], [0, 1], counting⟩ ∧ st = ⟨0, [0, 0], 0⟩ ∧
      step m st = (st₁, some (.network 100 ())) ∧ st₁ = ⟨0, [1, 0], 0⟩ ∧ step m st₁ = (st₂, some (.network 100 ())) ∧ st₂ = ⟨0, [2, 0], 0⟩ :=
  ⟨_, _, _, _, rfl, rfl, rfl, rfl, rfl, rfl⟩

/-- A recorder that cannot save. -/
def unsaved : Network Nat Nat Nat Nat Unit where
  compute _ _ s := (s, none)
  solve _ _ s := (s, none)
  after _ _ s := (s + 1, none)
  save _ _ _ r := (r, some ())

/-- **C47, refuted.** If the recorders fail, every scenario has gone through the step although it failed. -/
theorem C47_recorder_refuted :
    step ⟨[100], [0, 1], unsaved⟩ ⟨0, [0, 0], 0⟩ = (⟨0, [1, 1], 0⟩, some (.recorder 100 ())) := rfl

/-! ## Examples -/

/-- A network that runs: the state is a volume, a scenario has its own inflow and step `t` lasts `t` days. -/
def volumes : Network Nat Nat Nat (List (List Nat)) Unit where
  compute t i s := (s + t * i, none)
  solve _ _ s := (s - s / 10, none)
  after _ _ s := (s, if s > 1000 then some () else none)
  save _ _ ss r := (r ++ [ss], none)

/-- Meets the hypotheses of the theorems on runs. -/
example : loop ⟨[1, 2, 3], [5, 7], volumes⟩ 4 ⟨0, [100, 0], []⟩ = some (⟨3, [99, 36], [[95, 7], [95, 19], [99, 36]]⟩, none) := by decide

/-- The same for one scenario less, and with a stop after one step. -/
example : loop ⟨[1, 2, 3], [7], volumes⟩ 4 ⟨0, [0], []⟩ = some (⟨3, [36], [[7], [19], [36]]⟩, none) ∧
    step ⟨[1, 2, 3], [7], volumes⟩ ⟨0, [0], []⟩ = (⟨1, [7], [[7]]⟩, none) ∧
    loop ⟨[1, 2, 3], [7], volumes⟩ 3 ⟨1, [7], [[7]]⟩ = some (⟨3, [36], [[7], [19], [36]]⟩, none) := by decide

/-- Two interleavings of a parallel step, and the sequential one. -/
example : stepPar volumes 1 [5, 7] [100, 0] [1, 0, 0, 1, 1, 0] = some [(3, 95), (3, 7)] ∧
    stepPar volumes 1 [5, 7] [100, 0] [0, 0, 0, 1, 1, 1] = some [(3, 95), (3, 7)] ∧ stepAll volumes 1 [5, 7] [100, 0] = ([95, 7], none) := by decide

end Verif.Run
