import Verif.Lemmas.Files

/-!
# C102: files of data are found, checked and read, and the conversion of old models keeps what they said about them
-/

namespace Verif.Files

/-- A file passes a check if and only if it can be read and the checksum spells the digest of its content in lower-case digits. -/
theorem C102_checked (H : Digests) (disk : Disk) (path : String) (c : Checksum) :
    c.check H disk path = .ok () ↔ ∃ bytes, disk path = some bytes ∧ c.Fits H bytes := check_ok

/-- What is read of a file is what it holds, where the document and the directory of data say that it is; and only if its
checksum fits, if there is one. -/
theorem C102_read (H : Digests) (disk : Disk) (dp : Option String) (s : Source) (bytes : List UInt8) :
    s.load H disk dp = .ok bytes ↔ ∃ path, At s.url dp path ∧ disk path = some bytes ∧ ∀ c, s.checksum = some c → c.Fits H bytes := by
  have hp : (∃ path, At s.url dp path ∧ disk path = some bytes ∧ ∀ c, s.checksum = some c → c.Fits H bytes) ↔
      disk (makePath s.url dp) = some bytes ∧ ∀ c, s.checksum = some c → c.Fits H bytes :=
    ⟨fun ⟨p, h, h'⟩ => at_unique h (at_makePath s.url dp) ▸ h', fun h => ⟨_, at_makePath s.url dp, h⟩⟩
  rw [hp]
  unfold Source.load
  cases hc : s.checksum with
  | none =>
    simp only [reduceCtorEq, false_implies, implies_true, and_true]
    cases disk (makePath s.url dp) <;> simp
  | some c =>
    simp only [Option.some.injEq, forall_eq']
    cases h : c.check H disk (makePath s.url dp) with
    | error e =>
      simp only [reduceCtorEq, false_iff, not_and]
      intro hd hf
      rw [check_ok.2 ⟨bytes, hd, hf⟩] at h
      cases h
    | ok u =>
      obtain ⟨bs, hd, hf⟩ := check_ok.1 h
      simp only [hd, Except.ok.injEq, Option.some.injEq]
      exact ⟨fun e => ⟨e, e ▸ hf⟩, fun e => e.1⟩

/-- Each document names one file: an absolute path as it is, a relative one in the directory of data. -/
theorem C102_place (url : String) (dp : Option String) : ∃ path, At url dp path ∧ ∀ q, At url dp q → q = path :=
  ⟨_, at_makePath url dp, fun _ h => at_unique h (at_makePath url dp)⟩

/-- Different relative paths are different files of the directory. -/
theorem C102_apart {url url' dir path : String} (h : At url (some dir) path) (h' : At url' (some dir) path)
    (hr : url.toList.head? ≠ some '/') (hr' : url'.toList.head? ≠ some '/') : url = url' := by
  generalize hq : path = q at h'
  generalize hdp : some dir = dp at h h'
  cases h <;> cases h' <;> simp_all

/-- A change of a file that changes its digest is noticed: it is not read. -/
theorem C102_change (H : Digests) (disk disk' : Disk) (path : String) (c : Checksum) (bytes bytes' : List UInt8)
    (h : disk path = some bytes) (h' : disk' path = some bytes') (hc : c.check H disk path = .ok ())
    (hd : H.md5 bytes ≠ H.md5 bytes') (hs : H.sha256 bytes ≠ H.sha256 bytes') :
    ∃ actual expected, c.check H disk' path = .error (.mismatch actual expected path) := by
  obtain ⟨b, hb, hf⟩ := check_ok.1 hc
  rw [h] at hb; cases hb
  have hn : c.check H disk' path ≠ .ok () := fun h2 => by
    obtain ⟨b, hb, hf'⟩ := check_ok.1 h2
    rw [h'] at hb; cases hb
    cases c with
    | md5 _ => exact hd (spells_unique hf hf')
    | sha256 _ => exact hs (spells_unique hf hf')
  cases c with
  | md5 e =>
    simp only [Checksum.check, validate, h'] at hn ⊢
    split at hn
    · exact absurd rfl hn
    · rename_i hx; exact ⟨_, _, if_neg hx⟩
  | sha256 e =>
    simp only [Checksum.check, validate, h'] at hn ⊢
    split at hn
    · exact absurd rfl hn
    · rename_i hx; exact ⟨_, _, if_neg hx⟩

/-- A checksum with another character than lower-case digits, such as one in upper case, fits no file at all. -/
theorem C102_uppercase_refuted (H : Digests) (disk : Disk) (path : String) (hash : String) (x : Char) (hx : x ∈ hash.toList)
    (hv : value x = none) : (Checksum.md5 hash).check H disk path ≠ .ok () ∧ (Checksum.sha256 hash).check H disk path ≠ .ok () := by
  have key : ∀ {cs : List Char} {bs : List UInt8}, Spells cs bs → x ∉ cs := by
    intro cs bs h
    induction h with
    | nil => simp
    | cons hc hd _ _ ih =>
      simp only [List.mem_cons, not_or]
      refine ⟨fun e => ?_, fun e => ?_, ih⟩
      · rw [← e, hv] at hc; cases hc
      · rw [← e, hv] at hd; cases hd
  constructor <;> intro h <;> obtain ⟨bytes, -, hf⟩ := check_ok.1 h <;> exact key hf hx

/-! ## Old models -/

/-- A table of an old model keeps its file and a checksum of it, or is refused. -/
theorem C102_converted_table (name url : String) (m : Map String) :
    (∃ c, tablesArray name url (some m) = .ok ⟨url, some c⟩ ∧ ((∃ h, c = .md5 h ∧ ("md5", h) ∈ m) ∨ ∃ h, c = .sha256 h ∧ ("sha256", h) ∈ m)) ∨
      (tablesArray name url (some m) = .error (.checksum name) ∧ ∀ h, ("md5", h) ∉ m ∧ ("sha256", h) ∉ m) := by
  simp only [tablesArray, Checksum.ofV1]
  cases h1 : m.get "md5" with
  | some h => exact .inl ⟨.md5 h, rfl, .inl ⟨h, rfl, get_mem h1⟩⟩
  | none =>
    cases h2 : m.get "sha256" with
    | some h => exact .inl ⟨.sha256 h, rfl, .inr ⟨h, rfl, get_mem h2⟩⟩
    | none => exact .inr ⟨rfl, fun h => ⟨get_none.1 h1 h, get_none.1 h2 h⟩⟩

/-- A data frame of an old model with a file becomes a series of that file, unless there is one of its name; and a reference to
that series. A data frame of a table becomes a reference to the series of the table's name. -/
theorem C102_converted_frame (f : Frame) (made : List Pandas) (r : Reference) (h : (f.convert made).1 = .ok r) :
    r.original = f.name ∧ ¬ (f.column.isSome ∧ f.scenario.isSome) ∧
      (∀ c, r.columns = some (.column c) ↔ f.column = some c) ∧ (∀ c, r.columns = some (.scenario c) ↔ f.scenario = some c) ∧
      ((∃ url, f.url = some url ∧ r.series = f.name ∧ ∃ p ∈ (f.convert made).2, p.name = f.name ∧ (p ∈ made ∨ p.source.url = url)) ∨
        (f.url = none ∧ f.table = some r.series ∧ (f.convert made).2 = made)) := by
  obtain ⟨name, url, table, column, scenario, kwargs, checksum⟩ := f
  cases url with
  | none =>
    cases table <;> cases column <;> cases scenario <;> simp only [Frame.convert, reduceCtorEq, Except.ok.injEq] at h <;> subst h <;>
      simp [Frame.convert]
  | some url =>
    have hmade : ∃ p ∈ (if made.any (·.name == name) then made else made ++ [Frame.pandas ⟨name, some url, table, column, scenario, kwargs, checksum⟩ url]),
        p.name = name ∧ (p ∈ made ∨ p.source.url = url) := by
      split
      · rename_i ha
        simp only [List.any_eq_true, beq_iff_eq] at ha
        obtain ⟨p, hp, hn⟩ := ha
        exact ⟨p, hp, hn, .inl hp⟩
      · exact ⟨_, List.mem_append_right _ (List.mem_singleton.2 rfl), rfl, .inr rfl⟩
    cases column <;> cases scenario <;> simp only [Frame.convert, reduceCtorEq, Except.ok.injEq] at h <;> subst h <;>
      refine ⟨rfl, by simp, by simp, by simp, .inl ⟨url, rfl, rfl, ?_⟩⟩ <;> exact hmade

/-- Nothing is missing but a file and a table: every data frame with one of them, and with a column or a scenario or neither, is
converted. -/
theorem C102_accepts_frame (f : Frame) (made : List Pandas) :
    (∃ r, (f.convert made).1 = .ok r) ↔ (f.url.isSome ∨ f.table.isSome) ∧ ¬ (f.column.isSome ∧ f.scenario.isSome) := by
  obtain ⟨name, url, table, column, scenario, kwargs, checksum⟩ := f
  cases url <;> cases table <;> cases column <;> cases scenario <;> simp [Frame.convert]

/-- The checksum of a data frame is kept, if it is one of those known: what is read of the series then fits one of the
checksums of the old model. -/
theorem C102_frame_checksum_partial (H : Digests) (disk : Disk) (dp : Option String) (f : Frame) (url : String) (m : Map String) (hm : f.checksum = some m)
    (hk : ∃ h, ("md5", h) ∈ m ∨ ("sha256", h) ∈ m) (bytes : List UInt8) (h : (f.pandas url).source.load H disk dp = .ok bytes) :
    ∃ x, (("md5", x) ∈ m ∧ Spells x.toList (H.md5 bytes)) ∨ (("sha256", x) ∈ m ∧ Spells x.toList (H.sha256 bytes)) := by
  obtain ⟨-, -, -, hf⟩ := (C102_read _ _ _ _ _).1 h
  simp only [Frame.pandas, hm, Option.bind_some, Checksum.ofV1] at hf
  cases h1 : m.get "md5" with
  | some x => rw [h1] at hf; exact ⟨x, .inl ⟨get_mem h1, hf _ rfl⟩⟩
  | none =>
    rw [h1] at hf
    cases h2 : m.get "sha256" with
    | some x => rw [h2] at hf; exact ⟨x, .inr ⟨get_mem h2, hf _ rfl⟩⟩
    | none =>
      obtain ⟨x, hx | hx⟩ := hk
      · exact absurd hx (get_none.1 h1 x)
      · exact absurd hx (get_none.1 h2 x)

/-- A checksum of another kind is dropped without an error (`timeseries/mod.rs:494-497`): after the conversion, whatever the file
holds is read. For tables the same checksum is an error. -/
theorem C102_frame_checksum_refuted :
    ∃ (f : Frame) (r : Reference) (p : Pandas), f.checksum = some [("sha1", "00")] ∧ f.convert [] = (.ok r, [p]) ∧
      (∀ H disk dp bytes path, At p.source.url dp path → disk path = some bytes → p.source.load H disk dp = .ok bytes) ∧
      tablesArray f.name "a.csv" f.checksum = .error (.checksum f.name) :=
  ⟨⟨"inflow", some "a.csv", none, some "x", none, [], some [("sha1", "00")]⟩, ⟨"inflow", "inflow", some (.column "x")⟩, ⟨"inflow", none, ⟨"a.csv", none⟩, []⟩,
    rfl, by decide +kernel, fun H disk dp bytes path hp hd => (C102_read _ _ _ _ _).2 ⟨path, hp, hd, fun c h => by cases h⟩, by decide +kernel⟩

/-- The column of times stays the same if it is given by its name, or is the first. -/
theorem C102_times_partial (f : Frame) (url : String) (hu : Unique f.kwargs) (t : TimeColumn) (ht : f.Times t)
    (h0 : ∀ n, t = .number n → n = 0) : (f.pandas url).times = t := by
  cases ht with
  | named h => simp only [Frame.pandas, mem_get hu h, Pandas.times, Json.asStr]
  | number h =>
    cases h0 _ rfl
    simp only [Frame.pandas, mem_get hu h, Pandas.times, Json.asStr]
  | default h => simp only [Frame.pandas, get_none.2 h, Pandas.times]

/-- Given by another number it is lost (`timeseries/mod.rs:482-485`): the first column is taken instead, without an error. -/
theorem C102_times_refuted (f : Frame) (url : String) (hu : Unique f.kwargs) (n : Int) (h : f.Times (.number n)) (hn : n ≠ 0) :
    (f.pandas url).times = .number 0 ∧ (f.pandas url).times ≠ .number n := by
  have : (f.pandas url).times = .number 0 := by
    cases h with
    | number h => simp only [Frame.pandas, mem_get hu h, Pandas.times, Json.asStr]
    | default h => simp only [Frame.pandas, get_none.2 h, Pandas.times]
  exact ⟨this, by rw [this]; intro e; cases e; exact hn rfl⟩

theorem get_without {α : Type} (m : Map α) (k k' : String) : (m.without k).get k' = if k' = k then none else m.get k' := by
  unfold Map.without Map.get
  rw [List.find?_filter]
  split
  · rename_i h
    subst h
    simp only [Option.map_eq_none_iff, List.find?_eq_none]
    intro a _
    simp
  · rename_i h
    congr 2
    funext a
    by_cases e : a.1 = k' <;> simp [e, h]

/-- All other keywords are kept; of files of comma separated values the one that says that dates are parsed is not, as they are anyway. -/
theorem C102_keywords (f : Frame) (url k : String) (hk : k ≠ "index_col") (hp : k ≠ "parse_dates" ∨ extension url ≠ some "csv") :
    (f.pandas url).kwargs.get k = f.kwargs.get k := by
  simp only [Frame.pandas]
  split
  · rename_i h
    rw [get_without, get_without, if_neg hk, if_neg]
    rcases hp with hp | hp
    · exact hp
    · exact absurd h hp
  · rw [get_without, if_neg hk]

/-- The series made are called for with each keyword once, if the extension is in lower case and none of the keywords is
the path. -/
theorem C102_called_partial (f : Frame) (url : String) (hp : f.kwargs.get "path" = none) :
    (extension url = some "csv" → (f.pandas url).call = .ok .csv) ∧ (extension url = some "xlsx" → (f.pandas url).call = .ok .excel) ∧
      (extension url = some "h5" → (f.pandas url).call = .ok .hdf) := by
  have h1 : (f.pandas url).kwargs.get "path" = none := by rw [C102_keywords _ _ _ (by decide) (.inl (by decide)), hp]
  have h2 : (f.pandas url).kwargs.get "index_col" = none := by
    simp only [Frame.pandas]
    split
    · rw [get_without, get_without]; simp
    · rw [get_without]; simp
  have h3 : clash ["path", "index_col"] (f.pandas url).kwargs = none := by simp [clash, h1, h2]
  have hu : (f.pandas url).source.url = url := rfl
  refine ⟨fun h => ?_, fun h => ?_, fun h => ?_⟩
  · have h4 : (f.pandas url).kwargs.get "parse_dates" = none := by
      simp only [Frame.pandas, h, if_true]
      rw [get_without]; simp
    have h5 : clash ["parse_dates"] (f.pandas url).kwargs = none := by simp [clash, h4]
    have e : ("csv" : String).toLower = "csv" := by decide +kernel
    simp only [Pandas.call, h3, hu, h, Option.map_some, e, h5]
  · have e : ("xlsx" : String).toLower = "xlsx" := by decide +kernel
    simp only [Pandas.call, h3, hu, h, Option.map_some, e]
  · have e : ("h5" : String).toLower = "h5" := by decide +kernel
    simp only [Pandas.call, h3, hu, h, Option.map_some, e]

/-- With an extension in upper case, which the reader accepts, the keyword of parsed dates stays and is given twice: the series
of a valid old model cannot be loaded. -/
theorem C102_called_refuted : ∃ f : Frame, ∃ url, f.url = some url ∧ f.kwargs.get "path" = none ∧
    (f.pandas url).call = .error (.duplicate "parse_dates") ∧ ({ f.pandas url with kwargs := [] } : Pandas).call = .ok .csv :=
  ⟨⟨"inflow", some "A.CSV", none, some "x", none, [("index_col", .str "date"), ("parse_dates", .bool true)], none⟩, "A.CSV", rfl, by decide +kernel,
    by decide +kernel, by decide +kernel⟩

end Verif.Files
