import Verif.Spec.Cli
import Mathlib.Data.List.Basic
import Mathlib.Data.List.Nodup
import Mathlib.Data.List.TakeDrop

/-! # C105: the command that converts files -/

namespace Verif.Cli

theorem span_dot (l : List Char) : l.span (fun c => c != '.') = (l.takeWhile (fun c => c != '.'), l.dropWhile (fun c => c != '.')) :=
  List.span_eq_takeWhile_dropWhile _ _

theorem extension_json (n : String) : extension n = some "json" ↔ Json n := by
  unfold extension Json
  constructor
  · intro h
    split_ifs at h with h1
    rw [span_dot] at h
    have hs := List.takeWhile_append_dropWhile (p := fun c => c != '.') (l := n.toList.reverse)
    generalize ht : n.toList.reverse.takeWhile (fun c => c != '.') = t at h hs
    generalize hd : n.toList.reverse.dropWhile (fun c => c != '.') = u at h hs
    rcases u with _ | ⟨x, _ | ⟨y, ys⟩⟩
    · cases h
    · cases h
    · have ht' : t.reverse = ['j', 's', 'o', 'n'] := by
        have := congrArg String.toList (Option.some.inj h)
        simpa using this
      have hx : x = '.' := by
        have := List.head_dropWhile_not (p := fun c => c != '.') (l := n.toList.reverse) (by rw [hd]; simp)
        simpa [hd] using this
      have hn : n.toList = (t ++ x :: y :: ys).reverse := by rw [hs, List.reverse_reverse]
      have hr : (y :: ys).reverse ≠ [] := by simp
      obtain ⟨c, cs, hc⟩ := List.exists_cons_of_ne_nil hr
      refine ⟨c, cs, ?_⟩
      rw [hn, List.reverse_append, List.reverse_cons, hc, ht', hx]
      simp
  · rintro ⟨c, cs, h⟩
    have h1 : n ≠ ".." := by
      rintro rfl
      have := congrArg List.length h
      simp at this
    rw [if_neg h1, span_dot, h]
    have : (c :: cs ++ ['.', 'j', 's', 'o', 'n']).reverse = 'n' :: 'o' :: 's' :: 'j' :: '.' :: (cs.reverse ++ [c]) := by simp
    rw [this]
    cases hc : cs.reverse ++ [c] with
    | nil => simp at hc
    | cons y ys => simp

theorem handle_ok (errors : List String) (stop : Bool) : handleErrors errors stop = .ok () ↔ (stop = true → errors = []) := by
  cases errors <;> cases stop <;> simp [handleErrors]

theorem one_ok (T : Tool) (stop : Bool) (d d' : Disk) (i o : Path) :
    v1ToV2 T stop d i o = .ok d' ↔ ∃ text text', d i = some (.file text) ∧ Becomes T stop text text' ∧ d o ≠ some .dir ∧
      d o.dropLast = some .dir ∧ d' = fun q => if q = o then some (.file text') else d q := by
  unfold v1ToV2 Becomes
  constructor
  · intro h
    split at h
    · rename_i text hi
      split at h
      · cases h
      · rename_i a ha
        split at h
        · cases h
        · rename_i u hu
          split at h
          · cases h
          · rename_i t ht
            split at h
            · cases h
            · rename_i d₁ hw
              unfold Disk.write at hw
              split_ifs at hw with h1 h2
              exact ⟨text, t, hi, ⟨a, ha, (handle_ok _ _).1 hu, ht⟩, h1, h2, (Except.ok.inj h).symm.trans (Option.some.inj hw).symm⟩
    · cases h
  · rintro ⟨text, text', hi, ⟨a, ha, hs, hp⟩, h1, h2, rfl⟩
    simp only [hi, ha, (handle_ok _ _).2 hs, hp, Disk.write, h1, h2, if_false, if_true]

theorem becomes_unique {T : Tool} {stop : Bool} {text u v : String} (h : Becomes T stop text u) (h' : Becomes T stop text v) : u = v := by
  obtain ⟨a, ha, -, hu⟩ := h
  obtain ⟨b, hb, -, hv⟩ := h'
  rw [ha] at hb
  obtain rfl := Option.some.inj hb
  rw [hu] at hv
  exact Option.some.inj hv

/-- The loop over some entries. -/
theorem all_ok (T : Tool) (stop : Bool) (i o : Path) (ns : List String) (hn : ns.Nodup) : ∀ d d', d o = some .dir →
    (convertAll T stop i o d ns = (d', none) ↔
      (∀ n ∈ ns, ∀ text, Input d i n text → d (o ++ [n]) ≠ some .dir ∧ ∃ text', Becomes T stop text text' ∧ d' (o ++ [n]) = some (.file text')) ∧
      ∀ p, (∀ n ∈ ns, ∀ text, Input d i n text → p ≠ o ++ [n]) → d' p = d p) := by
  induction ns with
  | nil =>
    intro d d' _
    simp only [convertAll, Prod.mk.injEq, and_true, List.not_mem_nil, false_imp_iff, implies_true, true_and, forall_true_left]
    exact ⟨fun h p => h ▸ rfl, fun h => (funext h).symm⟩
  | cons n ns ih =>
    intro d d' ho
    have hn' := List.nodup_cons.1 hn
    have ih := ih hn'.2
    have skip : (∀ text, ¬ Input d i n text) → ((convertAll T stop i o d ns = (d', none)) ↔
        (∀ m ∈ n :: ns, ∀ text, Input d i m text → d (o ++ [m]) ≠ some .dir ∧ ∃ text', Becomes T stop text text' ∧ d' (o ++ [m]) = some (.file text')) ∧
        ∀ p, (∀ m ∈ n :: ns, ∀ text, Input d i m text → p ≠ o ++ [m]) → d' p = d p) := by
      intro hs
      rw [ih d d' ho]
      simp only [List.mem_cons, forall_eq_or_imp]
      refine and_congr ⟨fun h => ⟨fun t ht => absurd ht (hs t), h⟩, fun h => h.2⟩ (forall_congr' fun p => ?_)
      exact ⟨fun h hp => h hp.2, fun h hp => h ⟨fun t ht => absurd ht (hs t), hp⟩⟩
    unfold convertAll
    split
    · rename_i text htext
      split_ifs with hj
      · have hin : Input d i n text := ⟨(extension_json n).1 hj, htext⟩
        have hio : ∀ m, m ≠ n → i ++ [m] ≠ o ++ [n] := fun m hm e => hm (List.singleton_injective (List.append_inj_right' e rfl))
        have hoo : ∀ m, m ≠ n → o ++ [m] ≠ o ++ [n] := fun m hm e => hm (List.singleton_injective (List.append_inj_right' e rfl))
        have hne : o ≠ o ++ [n] := fun e => by simpa using congrArg List.length e
        have same : ∀ t', ∀ m ∈ ns, ∀ text, Input (fun q => if q = o ++ [n] then some (.file t') else d q) i m text ↔ Input d i m text := by
          intro t' m hm text
          have hmn : m ≠ n := fun e => hn'.1 (e ▸ hm)
          simp only [Input, hio m hmn, if_false]
        constructor
        · intro h
          cases hv : v1ToV2 T stop d (i ++ [n]) (o ++ [n]) with
          | error e => rw [hv] at h; cases h
          | ok d₁ =>
            rw [hv] at h
            obtain ⟨text₁, t', h1, hb, hd, -, rfl⟩ := (one_ok ..).1 hv
            obtain rfl : text = text₁ := by
              rw [htext] at h1
              exact Item.file.inj (Option.some.inj h1)
            have h := (ih _ d' (by simp only [hne, if_false, ho])).1 h
            refine ⟨fun m hm text₂ ht => ?_, fun p hp => ?_⟩
            · rcases List.mem_cons.1 hm with rfl | hm
              · obtain rfl : text = text₂ := by
                  have := htext.symm.trans ht.2
                  exact Item.file.inj (Option.some.inj this)
                refine ⟨hd, t', hb, ?_⟩
                rw [h.2 (o ++ [m]) fun k hk _ _ e => hoo k (fun e => hn'.1 (e ▸ hk)) e.symm]
                simp
              · have hmn : m ≠ n := fun e => hn'.1 (e ▸ hm)
                obtain ⟨h1, h2⟩ := h.1 m hm text₂ ((same t' m hm text₂).2 ht)
                simp only [hoo m hmn, if_false] at h1
                exact ⟨h1, h2⟩
            · have hpn : p ≠ o ++ [n] := hp n List.mem_cons_self text hin
              rw [h.2 p fun m hm t ht => hp m (List.mem_cons_of_mem _ hm) t ((same t' m hm t).1 ht)]
              simp only [hpn, if_false]
        · rintro ⟨h1, h2⟩
          obtain ⟨hd, t', hb, hw⟩ := h1 n List.mem_cons_self text hin
          have hv : v1ToV2 T stop d (i ++ [n]) (o ++ [n]) = .ok fun q => if q = o ++ [n] then some (.file t') else d q :=
            (one_ok ..).2 ⟨text, t', htext, hb, hd, by simpa using ho, rfl⟩
          rw [hv]
          refine (ih _ d' (by simp only [hne, if_false, ho])).2 ⟨fun m hm text₂ ht => ?_, fun p hp => ?_⟩
          · have hmn : m ≠ n := fun e => hn'.1 (e ▸ hm)
            have := h1 m (List.mem_cons_of_mem _ hm) text₂ ((same t' m hm text₂).1 ht)
            simp only [hoo m hmn, if_false]
            exact this
          · by_cases hpn : p = o ++ [n]
            · simp only [hpn, if_true, hw]
            · simp only [hpn, if_false]
              refine h2 p fun m hm t ht => ?_
              rcases List.mem_cons.1 hm with rfl | hm
              · exact hpn
              · exact hp m hm t ((same t' m hm t).2 ht)
      · exact skip fun t ht => hj ((extension_json n).2 ht.1)
    · rename_i hx
      exact skip fun t ht => hx t ht.2

variable (model network : Tool) (stop networkOnly : Bool) (d d' : Disk) (i o : Path)

/-- **C105.** A directory is converted without an error exactly if there is an output directory and each of its JSON files can be
converted and written; then the output directory has the conversion of each of them under its name, and all else is as before. -/
theorem C105_directory (entries : List String) (hl : Lists d i entries) (hi : d i = some .dir) :
    convert model network stop networkOnly entries d i o = (d', none) ↔
      d o = some .dir ∧ Converted (if networkOnly then network else model) stop i o d d' := by
  unfold convert
  simp only [hi, if_true]
  generalize (if networkOnly then network else model) = T
  split_ifs with ho
  · have h := all_ok T stop i o entries hl.once d d' ho
    rw [h]
    constructor
    · rintro ⟨h1, h2⟩
      exact ⟨ho, ⟨fun n t ht => h1 n (hl.all n _ ht.2) t ht, fun p hp => h2 p fun n _ t ht => hp n t ht⟩⟩
    · rintro ⟨-, h1, h2⟩
      exact ⟨fun n _ t ht => h1 n t ht, fun p hp => h2 p fun n t ht => hp n (hl.all n _ ht.2) t ht⟩
  · simp [ho]

/-- The order in which the file system lists the entries does not matter if there is no error. -/
theorem C105_order_partial (entries entries' : List String) (hl : Lists d i entries) (hl' : Lists d i entries') (hi : d i = some .dir)
    (h : convert model network stop networkOnly entries d i o = (d', none)) :
    convert model network stop networkOnly entries' d i o = (d', none) :=
  (C105_directory _ _ _ _ _ _ _ _ _ hl' hi).2 ((C105_directory _ _ _ _ _ _ _ _ _ hl hi).1 h)

/-- A file is converted exactly if the output is no directory but in one, and the file can be; nothing else is changed. -/
theorem C105_file (entries : List String) (hi : d i ≠ some .dir) :
    convert model network stop networkOnly entries d i o = (d', none) ↔
      d o ≠ some .dir ∧ d o.dropLast = some .dir ∧ ∃ text text', d i = some (.file text) ∧
        Becomes (if networkOnly then network else model) stop text text' ∧ d' o = some (.file text') ∧ ∀ p, p ≠ o → d' p = d p := by
  unfold convert
  simp only [hi, if_false]
  generalize (if networkOnly then network else model) = T
  split_ifs with ho
  · simp [ho]
  · constructor
    · intro h
      cases hv : v1ToV2 T stop d i o with
      | error e => rw [hv] at h; cases h
      | ok d₁ =>
        rw [hv] at h
        obtain rfl : d₁ = d' := (Prod.mk.inj h).1
        obtain ⟨text, text', h1, h2, h3, h4, rfl⟩ := (one_ok ..).1 hv
        exact ⟨h3, h4, text, text', h1, h2, by simp, fun p hp => by simp [hp]⟩
    · rintro ⟨h1, h2, text, text', h3, h4, h5, h6⟩
      have hv : v1ToV2 T stop d i o = .ok d' := (one_ok ..).2 ⟨text, text', h3, h4, h1, h2, by
        funext q
        by_cases hq : q = o
        · simp only [hq, h5, if_true]
        · simp only [hq, h6 q hq, if_false]⟩
      rw [hv]

theorem all_intact (T : Tool) (d₀ : Disk) (ns : List String) (hn : ns.Nodup) : ∀ d,
    (∀ n ∈ ns, d (i ++ [n]) = d₀ (i ++ [n])) → (∀ p, Intact T stop i o d₀ p (d p)) →
    ∀ p, Intact T stop i o d₀ p ((convertAll T stop i o d ns).1 p) := by
  induction ns with
  | nil => intro d _ h; exact h
  | cons n ns ih =>
    intro d hd h
    have hn' := List.nodup_cons.1 hn
    have ih := ih hn'.2
    have hd' : ∀ m ∈ ns, d (i ++ [m]) = d₀ (i ++ [m]) := fun m hm => hd m (List.mem_cons_of_mem _ hm)
    unfold convertAll
    split
    · rename_i text htext
      split_ifs with hj
      · cases hv : v1ToV2 T stop d (i ++ [n]) (o ++ [n]) with
        | error e => exact h
        | ok d₁ =>
          obtain ⟨text₁, t', h1, hb, -, -, rfl⟩ := (one_ok ..).1 hv
          refine ih _ (fun m hm => ?_) fun p => ?_
          · have hmn : m ≠ n := fun e => hn'.1 (e ▸ hm)
            have : i ++ [m] ≠ o ++ [n] := fun e => hmn (List.singleton_injective (List.append_inj_right' e rfl))
            simp only [this, if_false, hd' m hm]
          · by_cases hp : p = o ++ [n]
            · simp only [hp, if_true]
              exact .inr ⟨n, text₁, t', ⟨(extension_json n).1 hj, (hd n List.mem_cons_self).symm.trans h1⟩, rfl, hb, rfl⟩
            · simp only [hp, if_false]
              exact h p
      · exact ih d hd' h
    · exact ih d hd' h

/-- Whatever error there is, each path has what it had or the whole conversion of an input: with `stop_on_error` nothing that was
converted with errors is written, and no input is converted twice. -/
theorem C105_intact (entries : List String) (hl : entries.Nodup) (hi : d i = some .dir) (p : Path) :
    Intact (if networkOnly then network else model) stop i o d p ((convert model network stop networkOnly entries d i o).1 p) := by
  unfold convert
  simp only [hi, if_true]
  generalize (if networkOnly then network else model) = T
  split_ifs with ho
  · exact all_intact stop i o T d entries hl d (fun _ _ => rfl) (fun _ => .inl rfl) p
  · exact .inl rfl

end Verif.Cli
