import Verif.Lemmas.Format
import Verif.Lemmas.Core
/-
C42: machine readable output is faithful.
-/
namespace CfnLint
open Spec

/-! ### Parseable output -/

theorem parseableLine_spec {f : Finding} {l : List Char} (h : parseableLine f = .ok l) : ∃ m t, f.message = .text m ∧
    Unbroken m.toList t ∧ l = f.filename.toList ++ ':' :: (intText f.line ++ ':' :: (intText f.col ++ ':' ::
      (intText f.lineEnd ++ ':' :: (intText f.colEnd ++ ':' :: (f.rule.id.toList ++ ':' :: t))))) := by
  unfold parseableLine at h
  split at h
  · cases h
  · rename_i m hm
    cases h
    exact ⟨m, _, hm, flatten_unbroken _, by simp⟩

theorem parseableLines_spec : ∀ {fs : List Finding} {ls : List (List Char)}, parseableLines fs = .ok ls →
    List.Forall₂ (fun f l => parseableLine f = .ok l) fs ls := by
  intro fs
  induction fs with
  | nil => intro ls h; rw [parseableLines] at h; cases h; exact .nil
  | cons f fs ih =>
    intro ls h
    rw [parseableLines] at h
    split at h
    · cases h
    · rename_i l hl
      split at h
      · cases h
      · rename_i ls' hls
        cases h
        exact .cons hl (ih hls)

theorem parseable_spec {fs : List Finding} {out : List Char} (h : parseable fs = .ok (some out)) : ∃ ls, ls ≠ [] ∧
    List.Forall₂ (fun f l => parseableLine f = .ok l) fs ls ∧ out = joinLines ls := by
  unfold parseable at h
  split at h
  · cases h
  · rename_i hne
    split at h
    · cases h
    · rename_i ls hls
      cases h
      have := parseableLines_spec hls
      refine ⟨ls, ?_, this, rfl⟩
      rintro rfl
      cases this
      exact hne rfl

/-- there are findings iff there is output, and all messages are texts iff it is produced -/
theorem C42_parseable_produced_iff (fs : List Finding) :
    (∃ out, parseable fs = .ok out) ↔ ∀ f ∈ fs, ∃ m, f.message = .text m := by
  have hl : ∀ fs, (∃ ls, parseableLines fs = .ok ls) ↔ ∀ f ∈ fs, ∃ m, f.message = .text m := by
    intro fs
    induction fs with
    | nil => simp [parseableLines]
    | cons f fs ih =>
      rw [List.forall_mem_cons, ← ih, parseableLines]
      cases hm : f.message with
      | text m =>
        simp only [parseableLine, hm]
        constructor
        · rintro ⟨ls, h⟩
          refine ⟨⟨m, rfl⟩, ?_⟩
          split at h
          · cases h
          · rename_i ls' hls; exact ⟨ls', hls⟩
        · rintro ⟨_, ls, h⟩
          rw [h]
          exact ⟨_, rfl⟩
      | object c d =>
        simp [parseableLine, hm]
  rw [← hl]
  unfold parseable
  split
  · simp [parseableLines]
  · constructor
    · rintro ⟨out, h⟩
      split at h
      · cases h
      · rename_i ls hls; exact ⟨ls, hls⟩
    · rintro ⟨ls, h⟩
      rw [h]
      exact ⟨_, rfl⟩

theorem parseableLine_no_newline {f : Finding} {l : List Char} (h : parseableLine f = .ok l)
    (h1 : '\n' ∉ f.filename.toList) (h2 : '\n' ∉ f.rule.id.toList) : '\n' ∉ l := by
  obtain ⟨m, t, _, ht, rfl⟩ := parseableLine_spec h
  have := unbroken_no_newline ht
  simp [h1, h2, this, intText_no_newline]

theorem forall2_no_newline {fs : List Finding} {ls : List (List Char)}
    (h : List.Forall₂ (fun f l => parseableLine f = .ok l) fs ls)
    (hn : ∀ f ∈ fs, '\n' ∉ f.filename.toList ∧ '\n' ∉ f.rule.id.toList) : ∀ l ∈ ls, '\n' ∉ l := by
  induction h with
  | nil => simp
  | cons h1 _ ih =>
    rw [List.forall_mem_cons] at hn
    rw [List.forall_mem_cons]
    exact ⟨parseableLine_no_newline h1 hn.1.1 hn.1.2, ih hn.2⟩

/-- **C42** (one line per finding). The output consists of one line for each finding, in order: its fields separated by
colons, its message with each run of line breaks as one blank. File names and rule ids must hold no line feed. -/
theorem C42_parseable_lines_partial {fs : List Finding} {out : List Char} (h : parseable fs = .ok (some out))
    (hn : ∀ f ∈ fs, '\n' ∉ f.filename.toList ∧ '\n' ∉ f.rule.id.toList) : ∃ ls, Lines out ls ∧
    List.Forall₂ (fun f l => ∃ m t, f.message = .text m ∧ Unbroken m.toList t ∧ l = f.filename.toList ++ ':' ::
      (dumpInt f.line ++ ':' :: (dumpInt f.col ++ ':' :: (dumpInt f.lineEnd ++ ':' :: (dumpInt f.colEnd ++ ':' ::
        (f.rule.id.toList ++ ':' :: t)))))) fs ls := by
  obtain ⟨ls, hne, hf, rfl⟩ := parseable_spec h
  refine ⟨ls, lines_join hne (forall2_no_newline hf hn), hf.imp ?_⟩
  intro f l hl
  have := parseableLine_spec hl
  simpa only [intText_eq] using this

/-- so there are as many lines as findings -/
theorem C42_parseable_count_partial {fs : List Finding} {out : List Char} (h : parseable fs = .ok (some out))
    (hn : ∀ f ∈ fs, '\n' ∉ f.filename.toList ∧ '\n' ∉ f.rule.id.toList) : out.count '\n' + 1 = fs.length := by
  obtain ⟨ls, hl, hf⟩ := C42_parseable_lines_partial h hn
  rw [lines_count hl, hf.length_eq]

/-- no colon and no line feed in file name and rule id -/
def PlainNames (f : Finding) : Prop :=
  ':' ∉ f.filename.toList ∧ '\n' ∉ f.filename.toList ∧ ':' ∉ f.rule.id.toList ∧ '\n' ∉ f.rule.id.toList

theorem parseableLine_injective {f g : Finding} {l : List Char} (hf : parseableLine f = .ok l) (hg : parseableLine g = .ok l)
    (h1 : PlainNames f) (h2 : PlainNames g) : SameFields f g := by
  obtain ⟨m, t, hm, ht, rfl⟩ := parseableLine_spec hf
  obtain ⟨n, u, hn, hu, he⟩ := parseableLine_spec hg
  obtain ⟨e1, he⟩ := split_unique h1.1 h2.1 he
  obtain ⟨e2, he⟩ := split_unique (intText_no_colon _) (intText_no_colon _) he
  obtain ⟨e3, he⟩ := split_unique (intText_no_colon _) (intText_no_colon _) he
  obtain ⟨e4, he⟩ := split_unique (intText_no_colon _) (intText_no_colon _) he
  obtain ⟨e5, he⟩ := split_unique (intText_no_colon _) (intText_no_colon _) he
  obtain ⟨e6, he⟩ := split_unique h1.2.2.1 h2.2.2.1 he
  subst he
  exact ⟨String.toList_inj.1 e1, intText_injective e2, intText_injective e3, intText_injective e4, intText_injective e5,
    String.toList_inj.1 e6, m, n, t, hm, hn, ht, hu⟩

theorem sameFields_list : ∀ {fs gs : List Finding} {ls : List (List Char)},
    List.Forall₂ (fun f l => parseableLine f = .ok l) fs ls → List.Forall₂ (fun f l => parseableLine f = .ok l) gs ls →
    (∀ f ∈ fs, PlainNames f) → (∀ g ∈ gs, PlainNames g) → List.Forall₂ SameFields fs gs := by
  intro fs gs ls h
  induction h generalizing gs with
  | nil => intro h'; cases h'; intros; exact .nil
  | cons h1 _ ih =>
    intro h' hf hg
    cases h' with
    | cons h2 h3 =>
      rw [List.forall_mem_cons] at hf hg
      exact .cons (parseableLine_injective h1 h2 hf.1 hg.1) (ih h3 hf.2 hg.2)

/-- **C42** (fields can be recovered). Findings with the same output agree one by one in all fields, and in the message up
to line breaks. File names and rule ids must hold neither colon nor line feed. -/
theorem C42_parseable_recoverable_partial {fs gs : List Finding} {out : List Char} (hf : parseable fs = .ok (some out))
    (hg : parseable gs = .ok (some out)) (h1 : ∀ f ∈ fs, PlainNames f) (h2 : ∀ g ∈ gs, PlainNames g) :
    List.Forall₂ SameFields fs gs := by
  obtain ⟨ls, hne, hl, rfl⟩ := parseable_spec hf
  obtain ⟨ls', hne', hl', he⟩ := parseable_spec hg
  have a1 := lines_join hne (forall2_no_newline hl (fun f hf => ⟨(h1 f hf).2.1, (h1 f hf).2.2.2⟩))
  have a2 := lines_join hne' (forall2_no_newline hl' (fun f hf => ⟨(h2 f hf).2.1, (h2 f hf).2.2.2⟩))
  rw [he] at a1
  have := lines_unique a1 a2
  subst this
  exact sameFields_list hl hl' h1 h2

/-- messages without line feeds are recovered exactly -/
theorem C42_message_exact {f g : Finding} (h : SameFields f g) {m n : String} (hm : f.message = .text m)
    (hn : g.message = .text n) (h1 : '\n' ∉ m.toList) (h2 : '\n' ∉ n.toList) : m = n := by
  obtain ⟨m', n', t, hm', hn', ht, hu⟩ := h.message
  rw [hm] at hm'; rw [hn] at hn'
  cases hm'; cases hn'
  have e1 := unbroken_same ht h1
  have e2 := unbroken_same hu h2
  exact String.toList_inj.1 (e1.symm.trans e2)

/-- the claim in full about the parseable output -/
def C42_statement : Prop :=
  (∀ fs : List Finding, fs ≠ [] → ∃ out, parseable fs = .ok (some out) ∧ out.count '\n' + 1 = fs.length) ∧
  ∀ (fs gs : List Finding) (out : List Char), parseable fs = .ok (some out) → parseable gs = .ok (some out) →
    List.Forall₂ SameFields fs gs

/-- a finding of the decoder for a `YAMLError` -/
def yamlErrorFinding : Finding :=
  { line := 1, col := 1, lineEnd := 1, colEnd := 2, filename := "a.yaml", rule := parseErrorRule, description := "", shortdesc := "",
    source := "", message := .object "ReaderError" [], path := none }

/-- the message of a `YAMLError` is not a text and the formatter fails -/
theorem C42_violated : ¬ C42_statement := by
  intro h
  obtain ⟨out, ho, _⟩ := h.1 [yamlErrorFinding] (by simp)
  have : parseable [yamlErrorFinding] = .error (.typeError "expected string or bytes-like object") := rfl
  rw [this] at ho
  cases ho

/-- with a colon in the file name the fields cannot be told apart -/
theorem C42_colon_violated : ∃ f g : Finding, f.filename ≠ g.filename ∧ f.message = .text "x:1:1:1:1:E1:y" ∧ g.message = .text "y" ∧
    parseable [f] = parseable [g] ∧ ∃ out, parseable [f] = .ok (some out) := by
  let f : Finding := { yamlErrorFinding with colEnd := 1, filename := "a", rule := { id := "E1" }, message := .text "x:1:1:1:1:E1:y" }
  let g : Finding := { yamlErrorFinding with colEnd := 1, filename := "a:1:1:1:1:E1:x", rule := { id := "E1" }, message := .text "y" }
  have h1 : flatten "x:1:1:1:1:E1:y".toList = "x:1:1:1:1:E1:y".toList := unbroken_same (flatten_unbroken _) (by decide)
  have h2 : flatten "y".toList = "y".toList := unbroken_same (flatten_unbroken _) (by decide)
  have h3 : intText 1 = ['1'] := by rw [intText_eq]; simp [dumpInt, dumpNat]
  have hf : parseable [f] = .ok (some "a:1:1:1:1:E1:x:1:1:1:1:E1:y".toList) := by
    simp only [parseable, parseableLines, parseableLine, f, yamlErrorFinding, h1, h3, joinLines]
    decide
  have hg : parseable [g] = .ok (some "a:1:1:1:1:E1:x:1:1:1:1:E1:y".toList) := by
    simp only [parseable, parseableLines, parseableLine, g, yamlErrorFinding, h2, h3, joinLines]
    decide
  exact ⟨f, g, by decide, rfl, rfl, by rw [hf, hg], _, hf⟩

/-! ### JSON output -/

theorem codes_eq (s : String) : codes s = textOf s := rfl

theorem severity_level {r : RuleInfo} {l : Severity} (h : severity r = .ok l) : LevelName r.id (levelName l) := by
  unfold severity at h
  split at h
  · cases h
  · rename_i c s hs
    refine ⟨c, s, hs, ?_⟩
    simp only [toUpper_I, toUpper_E, toUpper_W] at h
    split at h
    · rename_i h1
      cases h
      exact .inr (.inr (.inl ⟨by simpa [or_comm] using h1, rfl⟩))
    · rename_i h1
      split at h
      · rename_i h2
        cases h
        exact .inl ⟨by simpa [or_comm] using h2, rfl⟩
      · rename_i h2
        split at h
        · rename_i h3
          cases h
          exact .inr (.inl ⟨by simpa [or_comm] using h3, rfl⟩)
        · rename_i h3
          cases h
          simp only [not_or] at h1 h2 h3
          exact .inr (.inr (.inr ⟨by simp [h1.1, h1.2, h2.1, h2.2, h3.1, h3.2], rfl⟩))

theorem sortItems_atoms {ps : List PathPart} : sortItems (ps.map pathPartJson) = ps.map pathPartJson := by
  induction ps with
  | nil => simp [sortItems]
  | cons p ps ih =>
    rw [List.map_cons, sortItems, ih]
    cases p <;> simp [pathPartJson, sortKeys]

theorem sortKeys_path (p : Option (List PathPart)) : sortKeys (pathJson p) = pathJson p := by
  cases p with
  | none => simp [pathJson, sortKeys]
  | some ps => simp [pathJson, sortKeys, sortItems_atoms]

/-- the record with its members sorted -/
theorem sorted_record {f : Finding} {v : JVal} (h : record f = .ok v) : ∃ l, severity f.rule = .ok l ∧ sortKeys v = .obj
      [(codes "Filename", .str (codes f.filename)),
       (codes "Level", .str (codes (levelName l))),
       (codes "Location", .obj
        [(codes "End", .obj [(codes "ColumnNumber", .int f.colEnd), (codes "LineNumber", .int f.lineEnd)]),
         (codes "Path", pathJson f.path),
         (codes "Start", .obj [(codes "ColumnNumber", .int f.col), (codes "LineNumber", .int f.line)])]),
       (codes "Message", sortKeys (messageJson f.message)),
       (codes "Rule", .obj
        [(codes "Description", .str (codes f.description)), (codes "Id", .str (codes f.rule.id)),
         (codes "ShortDescription", .str (codes f.shortdesc)), (codes "Source", .str (codes f.source))])] := by
  unfold record at h
  split at h
  · cases h
  · rename_i l hl
    cases h
    refine ⟨l, hl, ?_⟩
    simp only [sortKeys, sortMembers, sortKeys_path, insertMember]
    simp [codes, textLe, insertMember]

theorem reads_one {kvs : List (JText × JVal)} {k : String} {x : JVal} (h : (textOf k, x) ∈ kvs)
    (hn : (kvs.map Prod.fst).Nodup) : Reads (.obj kvs) [k] x := .member h hn (.here _)

theorem pathParts_spec (ps : List PathPart) : List.Forall₂ PartIs ps (ps.map pathPartJson) := by
  induction ps with
  | nil => exact .nil
  | cons p ps ih =>
    refine .cons ?_ ih
    cases p with
    | key s => exact .key s
    | index i => exact .index i

theorem codes_append (a b : String) : codes (a ++ b) = codes a ++ codes b := by simp [codes]

theorem sorted_isRecord {f : Finding} {v : JVal} (h : record f = .ok v) : IsRecord f (sortKeys v) := by
  obtain ⟨l, hl, he⟩ := sorted_record h
  rw [he]
  have hlev := severity_level hl
  have n1 : ∀ {a b c d e : JVal}, ([(codes "Filename", a), (codes "Level", b), (codes "Location", c), (codes "Message", d),
      (codes "Rule", e)].map Prod.fst).Nodup := by
    intros; simp only [List.map_cons, List.map_nil]; decide
  have n2 : ∀ {a b c : JVal}, ([(codes "End", a), (codes "Path", b), (codes "Start", c)].map Prod.fst).Nodup := by
    intros; simp only [List.map_cons, List.map_nil]; decide
  have n3 : ∀ {a b : JVal}, ([(codes "ColumnNumber", a), (codes "LineNumber", b)].map Prod.fst).Nodup := by
    intros; simp only [List.map_cons, List.map_nil]; decide
  have n4 : ∀ {a b c d : JVal}, ([(codes "Description", a), (codes "Id", b), (codes "ShortDescription", c),
      (codes "Source", d)].map Prod.fst).Nodup := by
    intros; simp only [List.map_cons, List.map_nil]; decide
  refine ⟨⟨_, rfl, n1, ?_⟩, ?_, ⟨_, hlev, ?_⟩, ?_, ?_, ?_, ?_, ?_, ?_, ?_, ?_, ?_, ?_⟩
  · intro k; simp [codes_eq]
  · exact reads_one (.head _) n1
  · exact reads_one (.tail _ (.head _)) n1
  · exact .member (.tail _ (.tail _ (.tail _ (.tail _ (.head _))))) n1 (reads_one (.tail _ (.head _)) n4)
  · exact .member (.tail _ (.tail _ (.tail _ (.tail _ (.head _))))) n1 (reads_one (.head _) n4)
  · exact .member (.tail _ (.tail _ (.tail _ (.tail _ (.head _))))) n1 (reads_one (.tail _ (.tail _ (.head _))) n4)
  · exact .member (.tail _ (.tail _ (.tail _ (.tail _ (.head _))))) n1 (reads_one (.tail _ (.tail _ (.tail _ (.head _)))) n4)
  · exact .member (.tail _ (.tail _ (.head _))) n1 (.member (.tail _ (.tail _ (.head _))) n2 (reads_one (.tail _ (.head _)) n3))
  · exact .member (.tail _ (.tail _ (.head _))) n1 (.member (.tail _ (.tail _ (.head _))) n2 (reads_one (.head _) n3))
  · exact .member (.tail _ (.tail _ (.head _))) n1 (.member (.head _) n2 (reads_one (.tail _ (.head _)) n3))
  · exact .member (.tail _ (.tail _ (.head _))) n1 (.member (.head _) n2 (reads_one (.head _) n3))
  · cases hp : f.path with
    | none => exact .inl ⟨rfl, .member (.tail _ (.tail _ (.head _))) n1 (reads_one (.tail _ (.head _)) n2)⟩
    | some ps => exact .inr ⟨ps, _, rfl, pathParts_spec ps, .member (.tail _ (.tail _ (.head _))) n1 (reads_one (.tail _ (.head _)) n2)⟩
  · cases hm : f.message with
    | text m =>
      rw [messageJson, sortKeys]
      exact .inl ⟨m, rfl, reads_one (.tail _ (.tail _ (.tail _ (.head _)))) n1⟩
    | object cls d =>
      refine .inr ⟨cls, d, sortKeys (.obj d), rfl, .member (.tail _ (.tail _ (.tail _ (.head _)))) n1 ?_⟩
      rw [messageJson, sortKeys, sortMembers, sortMembers, insertMember]
      exact reads_one (by rw [← codes_eq, codes_append, codes_append]; simp) (by simp)

theorem record_value {f : Finding} {v : JVal} (h : record f = .ok v)
    (hm : ∀ cls d, f.message = .object cls d → Value (.obj d)) : Value v := by
  unfold record at h
  split at h
  · cases h
  · cases h
    have hs : ∀ s, Value (.str (codes s)) := fun s => jvalue_str (scalar_codes s)
    have hpath : Value (pathJson f.path) := by
      cases f.path with
      | none => exact jvalue_null
      | some ps =>
        apply value_arr_intro
        intro v hv
        obtain ⟨p, _, rfl⟩ := List.mem_map.1 hv
        cases p with
        | key s => exact hs s
        | index i => exact jvalue_int i
    have hmsg : Value (messageJson f.message) := by
      cases hmm : f.message with
      | text s => exact hs s
      | object cls d =>
        apply value_obj_intro
        intro p hp
        rw [List.mem_singleton] at hp
        subst hp
        refine ⟨hm cls d hmm, ?_⟩
        rw [← codes_append, ← codes_append]
        exact scalar_codes _
    have hobj : ∀ kvs : List (JText × JVal), (∀ p ∈ kvs, Value p.2 ∧ ScalarText p.1) → Value (.obj kvs) :=
      fun _ => value_obj_intro
    refine hobj _ ?_
    simp only [List.forall_mem_cons, List.not_mem_nil, false_imp_iff, implies_true, and_true]
    refine ⟨⟨hobj _ ?_, scalar_codes _⟩, ⟨hobj _ ?_, scalar_codes _⟩, ⟨hs _, scalar_codes _⟩, ⟨hmsg, scalar_codes _⟩,
      ⟨hs _, scalar_codes _⟩⟩
    · simp only [List.forall_mem_cons, List.not_mem_nil, false_imp_iff, implies_true, and_true]
      exact ⟨⟨hs _, scalar_codes _⟩, ⟨hs _, scalar_codes _⟩, ⟨hs _, scalar_codes _⟩, ⟨hs _, scalar_codes _⟩⟩
    · simp only [List.forall_mem_cons, List.not_mem_nil, false_imp_iff, implies_true, and_true]
      refine ⟨⟨hobj _ ?_, scalar_codes _⟩, ⟨hobj _ ?_, scalar_codes _⟩, ⟨hpath, scalar_codes _⟩⟩ <;>
      · simp only [List.forall_mem_cons, List.not_mem_nil, false_imp_iff, implies_true, and_true]
        exact ⟨⟨jvalue_int _, scalar_codes _⟩, ⟨jvalue_int _, scalar_codes _⟩⟩

theorem records_spec : ∀ {fs : List Finding} {vs : List JVal}, records fs = .ok vs →
    List.Forall₂ (fun f v => record f = .ok v) fs vs := by
  intro fs
  induction fs with
  | nil => intro vs h; rw [records] at h; cases h; exact .nil
  | cons f fs ih =>
    intro vs h
    rw [records] at h
    split at h
    · cases h
    · rename_i l hl
      split at h
      · cases h
      · rename_i ls' hls
        cases h
        exact .cons hl (ih hls)

theorem sortItems_records {fs : List Finding} {vs : List JVal} (h : List.Forall₂ (fun f v => record f = .ok v) fs vs) :
    List.Forall₂ IsRecord fs (sortItems vs) := by
  induction h with
  | nil => rw [sortItems]; exact .nil
  | cons h1 _ ih => rw [sortItems]; exact .cons (sorted_isRecord h1) ih

/-- **C42** (JSON). The output is a JSON text denoting a list with exactly one record per finding, in order, and it
denotes nothing else. Fields of exception objects must be serialisable. -/
theorem C42_json {fs : List Finding} (hid : ∀ f ∈ fs, f.rule.id ≠ "")
    (hm : ∀ f ∈ fs, ∀ cls d, f.message = .object cls d → Value (.obj d)) :
    ∃ out vs, jsonOutput fs = .ok out ∧ (∀ v, Document out v ↔ v = .arr vs) ∧ List.Forall₂ IsRecord fs vs := by
  have hr : ∃ vs, records fs = .ok vs := by
    clear hm
    induction fs with
    | nil => exact ⟨[], rfl⟩
    | cons f fs ih =>
      rw [List.forall_mem_cons] at hid
      obtain ⟨vs, hvs⟩ := ih hid.2
      have : ∃ v, record f = .ok v := by
        unfold record
        split
        · rename_i e he
          unfold severity at he
          split at he
          · rename_i hnil
            exact absurd (String.toList_inj.1 hnil) hid.1
          · split at he
            · cases he
            · split at he
              · cases he
              · split at he <;> cases he
        · exact ⟨_, rfl⟩
      obtain ⟨v, hv⟩ := this
      exact ⟨v :: vs, by rw [records, hv, hvs]⟩
  obtain ⟨vs, hvs⟩ := hr
  have hf := records_spec hvs
  have hval : ∀ v ∈ vs, Value v := by
    clear hvs hid
    induction hf with
    | nil => simp
    | cons h1 _ ih =>
      rw [List.forall_mem_cons] at hm ⊢
      exact ⟨record_value h1 hm.1, ih hm.2⟩
  have hg := encode_gram _ 0 (sortKeys_value _ (value_arr_intro hval))
  have hs : sortKeys (.arr vs) = .arr (sortItems vs) := by rw [sortKeys]
  rw [hs] at hg
  have hd : Document (encode 0 (sortKeys (.arr vs))) (.arr (sortItems vs)) :=
    ⟨[], encode 0 (.arr (sortItems vs)), [], blank_nil, blank_nil, hg, by simp [hs]⟩
  refine ⟨_, sortItems vs, by rw [jsonOutput, hvs], ?_, sortItems_records hf⟩
  intro v
  constructor
  · intro h; exact document_unique h hd
  · rintro rfl; exact hd

/-- the hypotheses are met, by findings with line breaks, quotes and separators in the message -/
example : ∃ f g : Finding, PlainNames f ∧ f.message = .text "a:\n\"b\", c" ∧ f.rule.id ≠ "" ∧
    g.message = .object "ReaderError" [(textOf "position", .int 3)] ∧ Value (.obj [(textOf "position", .int 3)]) :=
  ⟨{ yamlErrorFinding with message := .text "a:\n\"b\", c" },
   { yamlErrorFinding with message := .object "ReaderError" [(textOf "position", .int 3)] },
   by unfold PlainNames; decide, rfl, by decide, rfl,
   value_obj_intro (by
     intro p hp
     rw [List.mem_singleton] at hp
     subst hp
     exact ⟨jvalue_int 3, scalar_codes "position"⟩)⟩

end CfnLint
