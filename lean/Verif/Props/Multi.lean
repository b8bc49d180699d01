import Verif.Model.Multi
import Mathlib.Data.List.Nodup

/-!
# C48: transfers between networks
-/

namespace Verif.Multi

variable {N S T : Type}

/-! ## Specification -/

/-- The network at position `a` is the one with the name. -/
def Named (ds : List (Decl N S)) (name : String) (a : Nat) : Prop := ∃ d, ds[a]? = some d ∧ d.name = name

/-- A declaration that should be accepted: names of networks and, within a network, of transfers are unique, and every
transfer comes from another network of the model. -/
def WellFormed (ds : List (Decl N S)) : Prop :=
  (ds.map (·.name)).Nodup ∧ (∀ d ∈ ds, (d.transfers.map (·.name)).Nodup ∧
    ∀ t ∈ d.transfers, t.fromModel ∈ ds.map (·.name) ∧ t.fromModel ≠ d.name)

/-- The value a transfer should deliver: the initial value in the first timestep if there is one, and otherwise the value
of the metric in the network and state it is to come from. -/
def Delivers (first : Bool) (t : TransferDecl N S) (n : N) (s : Scenario S) (v : ℚ) : Prop :=
  if first = true ∧ t.initial.isSome = true then t.initial = some v else t.metric n s = some v

/-! ## Building -/

theorem transferNames_iff (ts : List (TransferDecl N S)) (seen : List String) (hs : seen.Nodup) :
    (∃ m, transferNames seen ts = .ok m) ↔ (seen ++ ts.map (·.name)).Nodup := by
  induction ts generalizing seen with
  | nil => simpa [transferNames] using hs
  | cons t ts ih =>
    simp only [transferNames]
    by_cases h : t.name ∈ seen
    · rw [if_pos h]
      constructor
      · rintro ⟨m, hm⟩; cases hm
      · intro hn
        rw [List.nodup_append] at hn
        exact absurd rfl (hn.2.2 t.name h t.name (by simp))
    · rw [if_neg h, ih (seen ++ [t.name]) (by
        rw [List.nodup_append]
        refine ⟨hs, by simp, ?_⟩
        intro a ha b hb
        simp only [List.mem_singleton] at hb
        rw [hb]; rintro rfl; exact h ha)]
      rw [List.append_assoc]
      rfl

theorem networkMap_ok (ds : List (Decl N S)) (map : List (String × Nat)) (i : Nat) (h : ∀ d ∈ ds, (d.transfers.map (·.name)).Nodup)
    (hn : (map.map (·.1) ++ ds.map (·.name)).Nodup) :
    networkMap map i ds = .ok (map ++ (ds.map (·.name)).zip (List.range' i ds.length)) := by
  induction ds generalizing map i with
  | nil => simp [networkMap]
  | cons d ds ih =>
    obtain ⟨m, hm⟩ := (transferNames_iff d.transfers [] (by simp)).mpr (by simpa using h d List.mem_cons_self)
    have hd : d.name ∉ map.map (·.1) := by
      intro hd
      rw [List.nodup_append] at hn
      exact absurd rfl (hn.2.2 d.name hd d.name (by simp))
    simp only [networkMap, hm]
    rw [if_neg hd, ih (map ++ [(d.name, i)]) (i + 1) (fun x hx => h x (List.mem_cons_of_mem _ hx)) (by
      simpa [List.append_assoc] using hn)]
    simp [List.range'_succ]

theorem networkMap_names (ds : List (Decl N S)) (map : List (String × Nat)) (i : Nat) (out) (h : networkMap map i ds = .ok out)
    (hm : (map.map (·.1)).Nodup) : (map.map (·.1) ++ ds.map (·.name)).Nodup ∧ ∀ d ∈ ds, (d.transfers.map (·.name)).Nodup := by
  induction ds generalizing map i with
  | nil => simpa using hm
  | cons d ds ih =>
    rcases ht : transferNames [] d.transfers with t | m
    · simp only [networkMap, ht] at h; cases h
    · simp only [networkMap, ht] at h
      by_cases hd : d.name ∈ map.map (·.1)
      · rw [if_pos hd] at h; cases h
      · rw [if_neg hd] at h
        have hnd : ((map ++ [(d.name, i)]).map (·.1)).Nodup := by
          rw [List.map_append, List.nodup_append]
          refine ⟨hm, by simp, ?_⟩
          intro a ha b hb
          simp only [List.map_cons, List.map_nil, List.mem_singleton] at hb
          rw [hb]; rintro rfl; exact hd ha
        obtain ⟨h1, h2⟩ := ih (map ++ [(d.name, i)]) (i + 1) h hnd
        refine ⟨by simpa [List.append_assoc] using h1, ?_⟩
        intro x hx
        rcases List.mem_cons.mp hx with rfl | hx
        · exact by simpa using (transferNames_iff x.transfers [] (by simp)).mp ⟨m, ht⟩
        · exact h2 x hx

theorem lookup_range (names : List String) (i : Nat) (hn : names.Nodup) (name : String) (a : Nat) :
    (names.zip (List.range' i names.length)).lookup name = some a ↔ ∃ k, names[k]? = some name ∧ a = i + k := by
  induction names generalizing i with
  | nil => simp
  | cons x xs ih =>
    rw [List.nodup_cons] at hn
    simp only [List.length_cons, List.range'_succ, List.zip_cons_cons, List.lookup_cons]
    by_cases hx : name = x
    · subst hx
      simp only [beq_self_eq_true, Option.some.injEq]
      constructor
      · rintro rfl; exact ⟨0, rfl, rfl⟩
      · rintro ⟨k, hk, rfl⟩
        cases k with
        | zero => rfl
        | succ k => exact absurd (List.mem_of_getElem? (by simpa using hk)) hn.1
    · have : (name == x) = false := by simpa using hx
      rw [this]
      simp only
      rw [ih (i + 1) hn.2]
      constructor
      · rintro ⟨k, hk, rfl⟩; exact ⟨k + 1, by simpa using hk, by omega⟩
      · rintro ⟨k, hk, rfl⟩
        cases k with
        | zero => simp only [List.getElem?_cons_zero, Option.some.injEq] at hk; exact absurd hk.symm hx
        | succ k => exact ⟨k, by simpa using hk, by omega⟩

/-- What was built from one network's transfers. -/
inductive Built (map : List (String × Nat)) (k : Nat) : List (TransferDecl N S) → List (Transfer N S) → Prop
  | nil : Built map k [] []
  | cons {t : TransferDecl N S} {ts us a o} : map.lookup t.fromModel = some a → fromIndices a k = some o → Built map k ts us →
      Built map k (t :: ts) ({ source := o, metric := t.metric, initial := t.initial } :: us)

theorem buildTransfers_iff {map : List (String × Nat)} {k : Nat} {n : String} {ts : List (TransferDecl N S)} {us} :
    buildTransfers map k n ts = .ok us ↔ Built map k ts us := by
  induction ts generalizing us with
  | nil =>
    constructor
    · intro h; simp only [buildTransfers, Except.ok.injEq] at h; rw [← h]; exact .nil
    · intro h; cases h; rfl
  | cons t ts ih =>
    constructor
    · intro h
      rcases h1 : map.lookup t.fromModel with _ | a
      · simp only [buildTransfers, h1] at h; cases h
      · rcases h2 : fromIndices a k with _ | o
        · simp only [buildTransfers, h1, h2] at h; cases h
        · rcases h3 : buildTransfers map k n ts with e | vs
          · simp only [buildTransfers, h1, h2, h3] at h; cases h
          · simp only [buildTransfers, h1, h2, h3] at h; cases h
            exact .cons h1 h2 (ih.mp h3)
    · intro h
      cases h with
      | cons h1 h2 h3 => simp only [buildTransfers, h1, h2, ih.mpr h3]

theorem Built.get {map : List (String × Nat)} {k : Nat} {ts : List (TransferDecl N S)} {us : List (Transfer N S)} (h : Built map k ts us) (j : Nat)
    {t : TransferDecl N S} (ht : ts[j]? = some t) :
    ∃ a o, map.lookup t.fromModel = some a ∧ fromIndices a k = some o ∧ us[j]? = some { source := o, metric := t.metric, initial := t.initial } := by
  induction h generalizing j with
  | nil => simp at ht
  | @cons t' ts us a o h1 h2 _ ih =>
    cases j with
    | zero => simp only [List.getElem?_cons_zero, Option.some.injEq] at ht; subst ht; exact ⟨a, o, h1, h2, rfl⟩
    | succ j => exact ih j (by simpa using ht)

theorem Built.length {map : List (String × Nat)} {k : Nat} {ts : List (TransferDecl N S)} {us : List (Transfer N S)} (h : Built map k ts us) :
    us.length = ts.length := by
  induction h with
  | nil => rfl
  | cons _ _ _ ih => simp [ih]

theorem buildEntries_get {map : List (String × Nat)} {k : Nat} {ds : List (Decl N S)} {es} (h : buildEntries map k ds = .ok es) :
    es.length = ds.length ∧ ∀ (b : Nat) (d : Decl N S), ds[b]? = some d → ∃ us, es[b]? = some ⟨d.name, d.network, us⟩ ∧ Built map (k + b) d.transfers us := by
  induction ds generalizing k es with
  | nil => simp only [buildEntries, Except.ok.injEq] at h; subst h; exact ⟨rfl, by simp⟩
  | cons d ds ih =>
    rcases h1 : buildTransfers map k d.name d.transfers with e | us
    · simp only [buildEntries, h1] at h; cases h
    · rcases h2 : buildEntries map (k + 1) ds with e | fs
      · simp only [buildEntries, h1, h2] at h; cases h
      · simp only [buildEntries, h1, h2] at h; cases h
        obtain ⟨g1, g2⟩ := ih h2
        refine ⟨by simp [g1], ?_⟩
        intro b d' hb
        cases b with
        | zero =>
          simp only [List.getElem?_cons_zero, Option.some.injEq] at hb; subst hb
          exact ⟨us, rfl, buildTransfers_iff.mp h1⟩
        | succ b =>
          obtain ⟨vs, e1, e2⟩ := g2 b d' (by simpa using hb)
          exact ⟨vs, by simpa using e1, by rw [show k + (b + 1) = k + 1 + b by omega]; exact e2⟩

theorem fromIndices_none {a b : Nat} : fromIndices a b = none ↔ a = b := by
  unfold fromIndices
  by_cases h : a = b
  · simp [h]
  · rw [if_neg h]; split <;> simp [h]

/-- **C48** A model of several networks is accepted exactly if the names are unique and every transfer comes from another
network of the model. In particular a transfer from a network to itself is rejected. -/
theorem C48_accepts (ds : List (Decl N S)) : (∃ es, build ds = .ok es) ↔ WellFormed ds := by
  constructor
  · rintro ⟨es, h⟩
    rcases hm : networkMap [] 0 ds with e | map
    · simp only [build, hm] at h; cases h
    · simp only [build, hm] at h
      obtain ⟨h1, h2⟩ := networkMap_names ds [] 0 map hm (by simp)
      simp only [List.map_nil, List.nil_append] at h1
      have hmap := networkMap_ok ds [] 0 h2 (by simpa using h1)
      rw [hm] at hmap
      simp only [Except.ok.injEq, List.nil_append] at hmap
      obtain ⟨_, h3⟩ := buildEntries_get h
      refine ⟨h1, fun d hd => ⟨h2 d hd, ?_⟩⟩
      intro t ht
      obtain ⟨b, hb, rfl⟩ := List.getElem_of_mem hd
      obtain ⟨us, _, hB⟩ := h3 b ds[b] (List.getElem?_eq_getElem hb)
      obtain ⟨j, hj, rfl⟩ := List.getElem_of_mem ht
      obtain ⟨a, o, g1, g2, _⟩ := hB.get j (List.getElem?_eq_getElem hj)
      rw [hmap] at g1
      have hlen : ds.length = (ds.map (·.name)).length := by simp
      rw [hlen] at g1
      obtain ⟨k, e1, e2⟩ := (lookup_range _ 0 h1 _ a).mp g1
      refine ⟨List.mem_of_getElem? e1, ?_⟩
      intro heq
      have hba : b = a := by
        have e3 : (ds.map (·.name))[b]? = some (ds[b].transfers[j].fromModel) := by
          rw [List.getElem?_map, List.getElem?_eq_getElem hb, heq]; rfl
        have hk : k < (ds.map (·.name)).length := (List.getElem?_eq_some_iff.mp e1).1
        have hb' : b < (ds.map (·.name)).length := by simpa using hb
        have e4 : (ds.map (·.name))[b] = (ds.map (·.name))[k] := by
          have f1 := (List.getElem?_eq_some_iff.mp e1).2
          have f3 := (List.getElem?_eq_some_iff.mp e3).2
          rw [f1, f3]
        have := (List.Nodup.getElem_inj_iff h1).mp e4
        omega
      rw [hba, Nat.zero_add, fromIndices_none.mpr rfl] at g2
      cases g2
  · rintro ⟨h1, h2⟩
    have hmap := networkMap_ok ds [] 0 (fun d hd => (h2 d hd).1) (by simpa using h1)
    simp only [build, hmap, List.nil_append]
    have hlen : ds.length = (ds.map (·.name)).length := by simp
    rw [hlen]
    have tr : ∀ (k : Nat) (d : Decl N S), ds[k]? = some d → ∀ ts : List (TransferDecl N S), (∀ t ∈ ts, t ∈ d.transfers) →
        ∃ us, buildTransfers ((ds.map (·.name)).zip (List.range' 0 (ds.map (·.name)).length)) k d.name ts = .ok us := by
      intro k d hk ts hts
      induction ts with
      | nil => exact ⟨[], rfl⟩
      | cons t ts ih =>
        obtain ⟨us, hus⟩ := ih fun x hx => hts x (List.mem_cons_of_mem _ hx)
        have hd : d ∈ ds := List.mem_of_getElem? hk
        obtain ⟨hin, hne⟩ := (h2 d hd).2 t (hts t List.mem_cons_self)
        obtain ⟨a, ha, hav⟩ := List.getElem_of_mem hin
        have hl : ((ds.map (·.name)).zip (List.range' 0 (ds.map (·.name)).length)).lookup t.fromModel = some a :=
          (lookup_range _ 0 h1 _ a).mpr ⟨a, by rw [List.getElem?_eq_getElem ha, hav], by omega⟩
        have hak : a ≠ k := by
          rintro rfl
          apply hne
          rw [← hav, List.getElem_map]
          have := (List.getElem?_eq_some_iff.mp hk).2
          rw [this]
        rcases hf : fromIndices a k with _ | o
        · exact absurd (fromIndices_none.mp hf) hak
        · simp only [buildTransfers, hl, hf, hus]; exact ⟨_, rfl⟩
    have en : ∀ (es : List (Decl N S)) (k : Nat), es = ds.drop k →
        ∃ out, buildEntries ((ds.map (·.name)).zip (List.range' 0 (ds.map (·.name)).length)) k es = .ok out := by
      intro es
      induction es with
      | nil => intro k _; exact ⟨[], rfl⟩
      | cons d es ih =>
        intro k hk
        have hkd : ds[k]? = some d := by
          have : (ds.drop k)[0]? = some d := by rw [← hk]; rfl
          simpa using this
        have hrest : es = ds.drop (k + 1) := by
          have h3 : (ds.drop k).tail = es := by rw [← hk]; rfl
          rw [← h3, List.tail_drop]
        obtain ⟨us, hus⟩ := tr k d hkd d.transfers (fun t ht => ht)
        obtain ⟨out, ho⟩ := ih (k + 1) hrest
        simp only [buildEntries, hus, ho]
        exact ⟨_, rfl⟩
    exact en ds 0 (by simp)

/-! ## Delivering -/

theorem transferValues_spec {first : Bool} {src : Other → Option (N × Scenario S)} {ts : List (Transfer N S)} {idx : Nat} {vs out : List ℚ}
    (h : transferValues first src idx ts vs = .ok out) : out.length = vs.length ∧ (∀ j < idx, out[j]? = vs[j]?) ∧
      ∀ (j : Nat) (t : Transfer N S), ts[j]? = some t → ∃ n s v, src t.source = some (n, s) ∧ chosen first t n s = some v ∧ out[idx + j]? = some v := by
  induction ts generalizing idx vs with
  | nil => simp only [transferValues, Except.ok.injEq] at h; subst h; exact ⟨rfl, fun _ _ => rfl, by simp⟩
  | cons t ts ih =>
    rcases h1 : src t.source with _ | ⟨n, s⟩
    · simp only [transferValues, h1] at h; cases h
    · rcases h2 : chosen first t n s with _ | v
      · simp only [transferValues, h1, h2] at h; cases h
      · simp only [transferValues, h1, h2] at h
        by_cases hlt : idx < vs.length
        · rw [if_pos hlt] at h
          obtain ⟨g1, g2, g3⟩ := ih h
          refine ⟨by rw [g1, List.length_set], ?_, ?_⟩
          · intro j hj
            rw [g2 j (by omega), List.getElem?_set]
            rw [if_neg (by omega)]
          · intro j t' ht'
            cases j with
            | zero =>
              simp only [List.getElem?_cons_zero, Option.some.injEq] at ht'; subst ht'
              refine ⟨n, s, v, h1, h2, ?_⟩
              rw [Nat.add_zero, g2 idx (by omega), List.getElem?_set, if_pos rfl, if_pos hlt]
            | succ j =>
              obtain ⟨n', s', v', e1, e2, e3⟩ := g3 j t' (by simpa using ht')
              exact ⟨n', s', v', e1, e2, by rw [show idx + (j + 1) = idx + 1 + j by omega]; exact e3⟩
        · rw [if_neg hlt] at h; cases h

theorem deliver_spec {entries : List (Entry N S)} {first : Bool} {k : Nat} {states : List (List (Scenario S))} {e : Entry N S} {q₀ : Nat}
    {ss out : List (Scenario S)} (h : deliver entries first k states e q₀ ss = .ok out) : out.length = ss.length ∧
      ∀ (q : Nat) (s : Scenario S), ss[q]? = some s → ∃ vals, out[q]? = some { s with transfers := vals } ∧
        transferValues first (sourceOf (entries.take k) (states.take k) (entries.drop (k + 1)) (states.drop (k + 1)) (q₀ + q)) 0 e.transfers s.transfers = .ok vals := by
  induction ss generalizing q₀ out with
  | nil => simp only [deliver, Except.ok.injEq] at h; subst h; exact ⟨rfl, by simp⟩
  | cons s ss ih =>
    rcases h1 : transferValues first (sourceOf (entries.take k) (states.take k) (entries.drop (k + 1)) (states.drop (k + 1)) q₀) 0 e.transfers s.transfers with err | vals
    · simp only [deliver, h1] at h; cases h
    · rcases h2 : deliver entries first k states e (q₀ + 1) ss with err | rest
      · simp only [deliver, h1, h2] at h; cases h
      · simp only [deliver, h1, h2, Except.ok.injEq] at h; subst h
        obtain ⟨g1, g2⟩ := ih h2
        refine ⟨by simp [g1], ?_⟩
        intro q s' hq
        cases q with
        | zero =>
          simp only [List.getElem?_cons_zero, Option.some.injEq] at hq; subst hq
          exact ⟨vals, rfl, h1⟩
        | succ q =>
          obtain ⟨v, e1, e2⟩ := g2 q s' (by simpa using hq)
          exact ⟨v, by simpa using e1, by rw [show q₀ + (q + 1) = q₀ + 1 + q by omega]; exact e2⟩

theorem stepFrom_spec {run : N → T → List (Scenario S) → Option (List S)} {entries : List (Entry N S)} {t : T} {first : Bool} {k : Nat}
    {es : List (Entry N S)} {states out : List (List (Scenario S))} (h : stepFrom run entries t first k es states = .ok out) :
    out.length = states.length ∧ (∀ i, i < k ∨ k + es.length ≤ i → out[i]? = states[i]?) ∧
      ∀ (j : Nat) (e : Entry N S), es[j]? = some e → ∃ (mid : List (List (Scenario S))) (this this' : List (Scenario S)) (inner : List S),
        mid.length = states.length ∧ (∀ i < k + j, mid[i]? = out[i]?) ∧ (∀ i, k + j ≤ i → mid[i]? = states[i]?) ∧ states[k + j]? = some this ∧
        deliver entries first (k + j) mid e 0 this = .ok this' ∧ run e.network t this' = some inner ∧
        out[k + j]? = some (List.zipWith (fun s x => { s with inner := x }) this' inner) := by
  induction es generalizing k states with
  | nil => simp only [stepFrom, Except.ok.injEq] at h; subst h; exact ⟨rfl, fun _ _ => rfl, by simp⟩
  | cons e es ih =>
    rcases h1 : states[k]? with _ | this
    · simp only [stepFrom, h1] at h; cases h
    · have hk : k < states.length := (List.getElem?_eq_some_iff.mp h1).1
      rcases h2 : deliver entries first k states e 0 this with err | this'
      · simp only [stepFrom, h1, h2] at h; cases h
      · rcases h3 : run e.network t this' with _ | inner
        · simp only [stepFrom, h1, h2, h3] at h; cases h
        · simp only [stepFrom, h1, h2, h3] at h
          obtain ⟨g1, g2, g3⟩ := ih h
          have hset : ∀ i, i ≠ k → (states.set k (List.zipWith (fun s x => { s with inner := x }) this' inner))[i]? = states[i]? := by
            intro i hi
            rw [List.getElem?_set, if_neg (fun h => hi h.symm)]
          have hsetk : (states.set k (List.zipWith (fun s x => { s with inner := x }) this' inner))[k]? =
              some (List.zipWith (fun s x => { s with inner := x }) this' inner) := by
            rw [List.getElem?_set, if_pos rfl, if_pos hk]
          refine ⟨by rw [g1, List.length_set], ?_, ?_⟩
          · intro i hi
            simp only [List.length_cons] at hi
            rw [g2 i (by omega), hset i (by omega)]
          · intro j e' hj
            cases j with
            | zero =>
              simp only [List.getElem?_cons_zero, Option.some.injEq] at hj; subst hj
              refine ⟨states, this, this', inner, rfl, ?_, fun _ _ => rfl, h1, h2, h3, ?_⟩
              · intro i hi
                rw [g2 i (by omega), hset i (by omega)]
              · show out[k]? = _
                rw [g2 k (by omega), hsetk]
            | succ j =>
              obtain ⟨mid, th, th', inn, e0, e1, e2, e3, e4, e5, e6⟩ := g3 j e' (by simpa using hj)
              have hi : k + (j + 1) = k + 1 + j := by omega
              refine ⟨mid, th, th', inn, by rw [e0, List.length_set], ?_, ?_, ?_, by rw [hi]; exact e4, e5, by rw [hi]; exact e6⟩
              · intro i hlt; exact e1 i (by omega)
              · intro i hle; rw [e2 i (by omega), hset i (by omega)]
              · rw [hi, ← e3, hset _ (by omega)]

theorem sourceOf_spec {entries : List (Entry N S)} {mid : List (List (Scenario S))} {a b q : Nat} {o : Other} {n : N} {s : Scenario S}
    (hl : mid.length = entries.length) (hb : b < entries.length) (ho : fromIndices a b = some o)
    (h : sourceOf (entries.take b) (mid.take b) (entries.drop (b + 1)) (mid.drop (b + 1)) q o = some (n, s)) :
    ∃ e l, entries[a]? = some e ∧ e.network = n ∧ mid[a]? = some l ∧ l[q]? = some s := by
  unfold fromIndices at ho
  by_cases hab : a = b
  · rw [if_pos hab] at ho; cases ho
  · rw [if_neg hab] at ho
    have pick : ∀ (x : Option (Entry N S)) (y : Option (List (Scenario S))), (match x, y.bind (·[q]?) with
        | some e, some s => some (e.network, s)
        | _, _ => none) = some (n, s) → ∃ e l, x = some e ∧ e.network = n ∧ y = some l ∧ l[q]? = some s := by
      intro x y hxy
      rcases x with _ | e
      · cases hxy
      · rcases y with _ | l
        · cases hxy
        · rcases hs : l[q]? with _ | s'
          · simp only [Option.bind_some, hs] at hxy; cases hxy
          · simp only [Option.bind_some, hs, Option.some.injEq, Prod.mk.injEq] at hxy
            exact ⟨e, l, rfl, hxy.1, rfl, by rw [hs, hxy.2]⟩
    by_cases hlt : a < b
    · rw [if_pos hlt] at ho; cases ho
      have hlen : (mid.take b).length = b := by rw [List.length_take]; omega
      simp only [sourceOf, hlen] at h
      rw [if_neg (by omega), show b - (b - a) = a by omega] at h
      obtain ⟨e, l, h1, h2, h3, h4⟩ := pick _ _ h
      rw [List.getElem?_take_of_lt hlt] at h1 h3
      exact ⟨e, l, h1, h2, h3, h4⟩
    · rw [if_neg hlt] at ho; cases ho
      simp only [sourceOf] at h
      obtain ⟨e, l, h1, h2, h3, h4⟩ := pick _ _ h
      rw [List.getElem?_drop, show b + 1 + (a - b - 1) = a by omega] at h1 h3
      exact ⟨e, l, h1, h2, h3, h4⟩

/-- **C48** In a step, every transfer of every network delivers to every scenario the value of the network that was named:
from the end of this step if that network comes first, and as it was before this step if it comes later. In the first
timestep an initial value takes precedence. `states'` holds the transfer values each network used in the step. -/
theorem C48_delivered (run : N → T → List (Scenario S) → Option (List S)) (hrun : ∀ n t l r, run n t l = some r → r.length = l.length)
    (ds : List (Decl N S)) (entries : List (Entry N S)) (hbuild : build ds = .ok entries) (t : T) (first : Bool) (states states' : List (List (Scenario S)))
    (hlen : states.length = ds.length) (h : step run entries t first states = .ok states') (b : Nat) (d : Decl N S) (hd : ds[b]? = some d) (j : Nat)
    (tr : TransferDecl N S) (htr : d.transfers[j]? = some tr) (l : List (Scenario S)) (hl : states[b]? = some l) (q : Nat) (hq : q < l.length) :
    ∃ (a : Nat) (dₐ : Decl N S) (lₐ : List (Scenario S)) (sₐ : Scenario S) (l' : List (Scenario S)) (s' : Scenario S) (v : ℚ),
      a ≠ b ∧ ds[a]? = some dₐ ∧ dₐ.name = tr.fromModel ∧
      (if a < b then states' else states)[a]? = some lₐ ∧ lₐ[q]? = some sₐ ∧
      states'[b]? = some l' ∧ l'[q]? = some s' ∧ s'.transfers[j]? = some v ∧ Delivers first tr dₐ.network sₐ v := by
  -- what was built
  rcases hm : networkMap [] 0 ds with e | map
  · simp only [build, hm] at hbuild; cases hbuild
  simp only [build, hm] at hbuild
  obtain ⟨n1, n2⟩ := networkMap_names ds [] 0 map hm (by simp)
  simp only [List.map_nil, List.nil_append] at n1
  have hmap := networkMap_ok ds [] 0 n2 (by simpa using n1)
  rw [hm] at hmap
  simp only [Except.ok.injEq, List.nil_append] at hmap
  obtain ⟨he1, he2⟩ := buildEntries_get hbuild
  obtain ⟨us, hus, hB⟩ := he2 b d hd
  rw [Nat.zero_add] at hB
  obtain ⟨a, o, g1, g2, g3⟩ := hB.get j htr
  rw [hmap, show ds.length = (ds.map (·.name)).length by simp] at g1
  obtain ⟨k, e1, e2⟩ := (lookup_range _ 0 n1 _ a).mp g1
  rw [Nat.zero_add] at e2
  subst e2
  rw [List.getElem?_map, Option.map_eq_some_iff] at e1
  obtain ⟨dₐ, ha1, ha2⟩ := e1
  -- the step
  obtain ⟨f1, f2, f3⟩ := stepFrom_spec h
  obtain ⟨mid, this, this', inner, k0, k1, k2, k3, k4, k5, k6⟩ := f3 b _ hus
  rw [Nat.zero_add] at k1 k2 k3 k4 k6
  rw [hl] at k3; cases k3
  obtain ⟨d1, d2⟩ := deliver_spec k4
  obtain ⟨vals, v1, v2⟩ := d2 q l[q] (List.getElem?_eq_getElem hq)
  rw [Nat.zero_add] at v2
  obtain ⟨_, _, t3⟩ := transferValues_spec v2
  obtain ⟨n, s, v, w1, w2, w3⟩ := t3 j _ g3
  rw [Nat.zero_add] at w3
  have hb : b < entries.length := by rw [he1]; exact (List.getElem?_eq_some_iff.mp hd).1
  obtain ⟨eₐ, lₐ, x1, x2, x3, x4⟩ := sourceOf_spec (by rw [k0, hlen, he1]) hb g2 w1
  have hab : a ≠ b := by
    rintro rfl
    rw [fromIndices_none.mpr rfl] at g2; cases g2
  obtain ⟨usₐ, y1, _⟩ := he2 a dₐ ha1
  rw [x1] at y1; cases y1
  have hinn : inner.length = this'.length := hrun _ _ _ _ k5
  have hq' : q < this'.length := by rw [d1]; exact hq
  refine ⟨a, dₐ, lₐ, s, _, { inner := inner[q], transfers := vals }, v, hab, ha1, ha2, ?_, x4, k6, ?_, w3, ?_⟩
  · by_cases hlt : a < b
    · rw [if_pos hlt, ← k1 a hlt]; exact x3
    · rw [if_neg hlt, ← k2 a (by omega)]; exact x3
  · have hv : this'[q] = { l[q] with transfers := vals } := by
      rw [List.getElem?_eq_getElem hq'] at v1
      exact Option.some.inj v1
    rw [List.getElem?_zipWith, v1, List.getElem?_eq_getElem (by omega : q < inner.length)]
  · unfold Delivers
    unfold chosen at w2
    simp only at w2 x2
    rw [x2]
    by_cases hc : first = true ∧ tr.initial.isSome = true
    · rw [if_pos hc]
      obtain ⟨v', hv'⟩ := Option.isSome_iff_exists.mp hc.2
      rw [hc.1, if_pos rfl, hv'] at w2
      rw [hv']; exact w2
    · rw [if_neg hc]
      have : (if first = true then tr.initial else none) = none := by
        by_cases hf : first = true
        · rw [if_pos hf]
          rcases hi : tr.initial with _ | x
          · rfl
          · exact absurd ⟨hf, by rw [hi]; rfl⟩ hc
        · rw [if_neg hf]
      rw [this] at w2
      exact w2

theorem step_length {run : N → T → List (Scenario S) → Option (List S)} {entries : List (Entry N S)} {t : T} {first : Bool}
    {states states' : List (List (Scenario S))} (h : step run entries t first states = .ok states') : states'.length = states.length :=
  (stepFrom_spec h).1

/-- The number of scenarios of each network stays the same. -/
theorem step_scenarios {run : N → T → List (Scenario S) → Option (List S)} (hrun : ∀ n t l r, run n t l = some r → r.length = l.length)
    {entries : List (Entry N S)} {t : T} {first : Bool} {states states' : List (List (Scenario S))} (h : step run entries t first states = .ok states')
    (b : Nat) : (states'[b]?).map List.length = (states[b]?).map List.length := by
  obtain ⟨h1, h2, h3⟩ := stepFrom_spec h
  rcases he : entries[b]? with _ | e
  · rw [h2 b (.inr (by rw [Nat.zero_add]; exact List.getElem?_eq_none_iff.mp he))]
  · obtain ⟨_, this, this', inner, _, _, _, k3, k4, k5, k6⟩ := h3 b e he
    rw [Nat.zero_add] at k3 k6
    rw [k3, k6]
    have := hrun _ _ _ _ k5
    have := (deliver_spec k4).1
    simp [*]

/-- **C48** In a run, in every timestep but the first, a transfer delivers the value its network has at the end of the same
timestep if it comes first, and the value it had at the end of the previous timestep if it comes later. The `i`-th element
of the trace is the state before timestep `i`. -/
theorem C48_run (run : N → T → List (Scenario S) → Option (List S)) (hrun : ∀ n t l r, run n t l = some r → r.length = l.length)
    (ds : List (Decl N S)) (entries : List (Entry N S)) (hbuild : build ds = .ok entries) (ts : List T) (states : List (List (Scenario S)))
    (hlen : states.length = ds.length) (tr : List (List (List (Scenario S)))) (h : trace run entries 0 ts states = .ok tr) :
    tr.length = ts.length + 1 ∧ ∀ (i : Nat), i < ts.length → ∃ s s', tr[i]? = some s ∧ tr[i + 1]? = some s' ∧
      ∀ (b : Nat) (d : Decl N S), ds[b]? = some d → ∀ (j : Nat) (x : TransferDecl N S), d.transfers[j]? = some x →
      ∀ (l : List (Scenario S)), states[b]? = some l → ∀ q < l.length,
      ∃ (a : Nat) (dₐ : Decl N S) (lₐ : List (Scenario S)) (sₐ : Scenario S) (l' : List (Scenario S)) (r : Scenario S) (v : ℚ),
        a ≠ b ∧ ds[a]? = some dₐ ∧ dₐ.name = x.fromModel ∧ (if a < b then s' else s)[a]? = some lₐ ∧ lₐ[q]? = some sₐ ∧
        s'[b]? = some l' ∧ l'[q]? = some r ∧ r.transfers[j]? = some v ∧ Delivers (i == 0) x dₐ.network sₐ v := by
  have key : ∀ (ts : List T) (n : Nat) (st : List (List (Scenario S))) (out : List (List (List (Scenario S)))),
      (∀ b : Nat, (st[b]?).map List.length = (states[b]?).map List.length) → st.length = ds.length → trace run entries n ts st = .ok out →
      out[0]? = some st ∧ out.length = ts.length + 1 ∧ ∀ (i : Nat), i < ts.length → ∃ s s', out[i]? = some s ∧ out[i + 1]? = some s' ∧
      ∀ (b : Nat) (d : Decl N S), ds[b]? = some d → ∀ (j : Nat) (x : TransferDecl N S), d.transfers[j]? = some x →
      ∀ (l : List (Scenario S)), states[b]? = some l → ∀ q < l.length,
      ∃ (a : Nat) (dₐ : Decl N S) (lₐ : List (Scenario S)) (sₐ : Scenario S) (l' : List (Scenario S)) (r : Scenario S) (v : ℚ),
        a ≠ b ∧ ds[a]? = some dₐ ∧ dₐ.name = x.fromModel ∧ (if a < b then s' else s)[a]? = some lₐ ∧ lₐ[q]? = some sₐ ∧
        s'[b]? = some l' ∧ l'[q]? = some r ∧ r.transfers[j]? = some v ∧ Delivers (n + i == 0) x dₐ.network sₐ v := by
    intro ts
    induction ts with
    | nil =>
      intro n st out _ _ h
      simp only [trace, Except.ok.injEq] at h; subst h
      exact ⟨rfl, rfl, fun i hi => absurd hi (Nat.not_lt_zero i)⟩
    | cons t ts ih =>
      intro n st out hsc hl h
      rcases h1 : step run entries t (n == 0) st with e | st'
      · simp only [trace, h1] at h; cases h
      · rcases h2 : trace run entries (n + 1) ts st' with e | rest
        · simp only [trace, h1, h2] at h; cases h
        · simp only [trace, h1, h2, Except.ok.injEq] at h; subst h
          obtain ⟨g0, g1, g2⟩ := ih (n + 1) st' rest (fun b => by rw [step_scenarios hrun h1 b, hsc b]) (by rw [step_length h1, hl]) h2
          refine ⟨rfl, by simp [g1], ?_⟩
          intro i hi
          cases i with
          | zero =>
            refine ⟨st, st', rfl, by simpa using g0, ?_⟩
            intro b d hd j x hx l hlb q hq
            have hs := hsc b
            rw [hlb] at hs
            rcases hstb : st[b]? with _ | lb
            · rw [hstb] at hs; cases hs
            · rw [hstb] at hs
              simp only [Option.map_some, Option.some.injEq] at hs
              exact C48_delivered run hrun ds entries hbuild t (n == 0) st st' hl h1 b d hd j x hx lb hstb q (by omega)
          | succ i =>
            obtain ⟨s, s', k1, k2, k3⟩ := g2 i (by simpa using hi)
            refine ⟨s, s', by simpa using k1, by simpa using k2, ?_⟩
            rw [show n + (i + 1) = n + 1 + i by omega]
            exact k3
  obtain ⟨_, h1, h2⟩ := key ts 0 states tr (fun _ => rfl) hlen h
  refine ⟨h1, fun i hi => ?_⟩
  have := h2 i hi
  simpa using this

/-! ## Example and refutation -/

/-- Three networks, of which the middle one takes a value from each neighbour. The inner state is a volume; a step adds
what was delivered, and one. -/
def sample (initial : Option ℚ) : List (Decl Unit ℚ) :=
  [⟨"upstream", (), []⟩,
    ⟨"middle", (), [⟨"inflow", "upstream", fun _ s => some s.inner, initial⟩, ⟨"demand", "downstream", fun _ s => some (2 * s.inner), some 7⟩]⟩,
    ⟨"downstream", (), []⟩]

def sampleRun (_ : Unit) (_ : Nat) (l : List (Scenario ℚ)) : Option (List ℚ) := some (l.map fun s => s.inner + s.transfers.sum + 1)

def sampleStates : List (List (Scenario ℚ)) := [[⟨10, []⟩, ⟨20, []⟩], [⟨0, [0, 0]⟩, ⟨0, [0, 0]⟩], [⟨5, []⟩, ⟨6, []⟩]]

/-- Meets the hypotheses of the theorems. In the second timestep the value from upstream is that at its end and the one
from downstream that at its beginning. -/
example : (build (sample none)).toOption.isSome = true ∧ (∀ n t l r, sampleRun n t l = some r → r.length = l.length) ∧
    ((build (sample none)).toOption.bind fun es => (trace sampleRun es 0 [0, 1] sampleStates).toOption) =
      some [sampleStates, [[⟨11, []⟩, ⟨21, []⟩], [⟨19, [11, 7]⟩, ⟨29, [21, 7]⟩], [⟨6, []⟩, ⟨7, []⟩]],
        [[⟨12, []⟩, ⟨22, []⟩], [⟨44, [12, 12]⟩, ⟨66, [22, 14]⟩], [⟨7, []⟩, ⟨8, []⟩]]] := by
  refine ⟨by decide +kernel, ?_, by decide +kernel⟩
  intro n t l r h
  simp only [sampleRun, Option.some.injEq] at h
  rw [← h, List.length_map]

/-- A transfer from a network to itself, and one from a network that is not there. -/
example : (match build [(⟨"a", (), [⟨"t", "a", fun _ _ => some 0, none⟩]⟩ : Decl Unit ℚ)] with
      | .error e => some e
      | .ok _ => none) = some (.transferToSelf "t" "a") ∧
    (match build [(⟨"a", (), [⟨"t", "b", fun _ _ => some 0, none⟩]⟩ : Decl Unit ℚ)] with
      | .error e => some e
      | .ok _ => none) = some (.networkNotFound "t" "b") := by decide +kernel

/-- **C48** The initial value takes precedence also over a network that comes first: in the first timestep the transfer
from upstream delivers 100, not the 11 upstream has reached in the same timestep. -/
theorem C48_initial_precedence :
    ∃ (es : List (Entry Unit ℚ)) (states' : List (List (Scenario ℚ))), build (sample (some 100)) = .ok es ∧ step sampleRun es 0 true sampleStates = .ok states' ∧
      (states'[0]?.bind (·[0]?)).map (·.inner) = some 11 ∧ (states'[1]?.bind (·[0]?)).map (·.transfers) = some [100, 7] := by
  refine ⟨_, _, rfl, rfl, ?_, ?_⟩ <;> decide +kernel

end Verif.Multi
