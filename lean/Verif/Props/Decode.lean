import Verif.Model.Decode
import Verif.Props.Yaml
/-
C37: decoding is total.
-/
namespace CfnLint
open Spec

/-- What C37 asks of the result: an object without findings, or findings that are all E0000 and name the file. -/
def DecodeResult (filename : String) (r : PyM (Val × List Match)) : Prop :=
  ∃ t ms, r = .ok (t, ms) ∧
    (((∃ kvs, t = Val.dict kvs) ∧ ms = []) ∨
     (ms ≠ [] ∧ ∀ m ∈ ms, m.rule.id = "E0000" ∧ m.filename = filename))

/-- PyYAML's reader, scanner, parser and composer raise only `YAMLError`s. -/
def ComposeRaisesYaml (env : DecodeEnv) : Prop :=
  ∀ s e, env.compose s = .error e →
    (∃ p l c, e = .parser p l c) ∨ (∃ p l c, e = .scanner p l c) ∨ ∃ m, e = .yaml m

/-- Trees whose construction uses only text keys, gives `!GetAtt` text or a list of scalars, has no scalar tagged as
mapping, and whose scalars are constructible or rejected by a `ConstructorError`. -/
def Ordinary (ctor : String → String → YM Val) (t : YNode) : Prop :=
  ∀ x, SubNode x t → match x with
    | .scalar tag v => tag ≠ mapTag ∧ ∀ e, ctor tag v ≠ .error (.py e)
    | .seq tag xs => tag = "!GetAtt" → ∀ y ∈ xs, ∃ t v, y = YNode.scalar t v
    | .map tag kvs => (∀ p ∈ kvs, ∃ s, p.1 = YNode.scalar strTag s) ∧ (tag = "!GetAtt" → kvs = [])

theorem rawValues_scalars {xs : List YNode} (h : ∀ y ∈ xs, ∃ t v, y = YNode.scalar t v) :
    ∃ vs, rawValues xs = .ok vs := by
  induction xs with
  | nil => exact ⟨[], rfl⟩
  | cons x xs ih =>
    obtain ⟨t, v, rfl⟩ := h x (by simp)
    obtain ⟨vs, hvs⟩ := ih (fun y hy => h y (by simp [hy]))
    exact ⟨_, by simp [rawValues, rawValue, hvs]; rfl⟩

variable {ctor : String → String → YM Val}

theorem getatt_tag {tag s : String} (h : tagSuffix tag = some s) (hg : fnName s = "Fn::GetAtt") : tag = "!GetAtt" := by
  rw [tagSuffix_short] at h
  rw [fnName_getatt] at hg
  subst hg
  exact shortName_eq h

mutual
theorem construct_no_py : ∀ t : YNode, Ordinary ctor t → ∀ e, yconstruct ctor t ≠ .error (.py e)
  | .scalar tag v, h, e => by
    obtain ⟨h1, h2⟩ := h _ (.here _)
    intro hc
    unfold yconstruct at hc
    split at hc
    · cases hc
    · split at hc
      · cases hc
      · split at hc
        · cases hc
        · split at hc
          · split at hc <;> cases hc
          · exact h2 e hc
  | .seq tag xs, h, e => by
    have h0 := h _ (.here _)
    have hl := construct_no_py_list xs (fun y hy x hx => h x (.item hy hx)) e
    intro hc
    unfold yconstruct at hc
    split at hc
    · split at hc
      · rename_i he; cases hc; exact hl he
      · cases hc
    · split at hc
      · cases hc
      · split at hc
        · rename_i s hs
          split at hc
          · rename_i hg
            obtain ⟨vs, hvs⟩ := rawValues_scalars (h0 (getatt_tag hs hg))
            rw [hvs] at hc
            cases hc
          · split at hc
            · rename_i he; cases hc; exact hl he
            · cases hc
        · cases hc
  | .map tag kvs, h, e => by
    obtain ⟨h1, h2⟩ := h _ (.here _)
    have hl := fun strict => construct_no_py_pairs strict kvs [] h1 (fun p hp x hx => h x (.value (k := p.1) hp hx)) e
    intro hc
    unfold yconstruct at hc
    split at hc
    · split at hc
      · rename_i he; cases hc; exact hl _ he
      · cases hc
    · split at hc
      · cases hc
      · split at hc
        · rename_i s hs
          split at hc
          · rename_i hg
            rw [if_pos (h2 (getatt_tag hs hg))] at hc
            cases hc
          · split at hc
            · rename_i he; cases hc; exact hl _ he
            · cases hc
        · cases hc
theorem construct_no_py_list : ∀ xs : List YNode, (∀ y ∈ xs, Ordinary ctor y) →
    ∀ e, yconstructList ctor xs ≠ .error (.py e)
  | [], _, e => by intro hc; rw [yconstructList] at hc; cases hc
  | x :: xs, h, e => by
    intro hc
    unfold yconstructList at hc
    split at hc
    · rename_i he
      cases hc
      exact construct_no_py x (h x (by simp)) e he
    · split at hc
      · rename_i he
        cases hc
        exact construct_no_py_list xs (fun y hy => h y (by simp [hy])) e he
      · cases hc
theorem construct_no_py_pairs (strict : Bool) : ∀ (kvs : List (YNode × YNode)) (acc : List (Key × Val)),
    (∀ p ∈ kvs, ∃ s, p.1 = YNode.scalar strTag s) → (∀ p ∈ kvs, Ordinary ctor p.2) →
    ∀ e, yconstructPairs ctor strict kvs acc ≠ .error (.py e)
  | [], _, _, _, e => by intro hc; rw [yconstructPairs] at hc; cases hc
  | (k, v) :: kvs, acc, h1, h2, e => by
    intro hc
    obtain ⟨s, hs⟩ := h1 (k, v) (by simp)
    dsimp only at hs
    subst hs
    unfold yconstructPairs at hc
    rw [show yconstruct ctor (.scalar strTag s) = .ok (.str s) by rw [yconstruct, if_pos rfl]] at hc
    dsimp only at hc
    split at hc
    · rename_i he
      cases hc
      exact construct_no_py v (h2 (YNode.scalar strTag s, v) (by simp)) e he
    · dsimp only [hashKey] at hc
      split at hc
      · cases hc
      · exact construct_no_py_pairs strict kvs _ (fun p hp => h1 p (by simp [hp])) (fun p hp => h2 p (by simp [hp])) e hc
end

theorem finishDecode_ok (filename : String) (v : Val) : DecodeResult filename (.ok (finishDecode filename v [])) := by
  unfold finishDecode
  split
  · exact ⟨_, _, rfl, .inr ⟨by simp, by simp [parseErrorRule]⟩⟩
  · rename_i h
    refine ⟨_, _, rfl, .inl ⟨?_, rfl⟩⟩
    cases v <;> simp [Val.isDict] at h ⊢

theorem finishDecode_err (filename : String) (v : Val) (m : Match) (h1 : m.rule.id = "E0000") (h2 : m.filename = filename) :
    DecodeResult filename (.ok (finishDecode filename v [m])) := by
  unfold finishDecode
  rw [if_neg (by simp)]
  exact ⟨_, _, rfl, .inr ⟨by simp, by simpa using ⟨h1, h2⟩⟩⟩

theorem fileMatch_ok (filename msg : String) : DecodeResult filename (.ok (Val.none, [fileMatch filename msg])) :=
  ⟨_, _, rfl, .inr ⟨by simp, by simp [fileMatch, parseErrorRule]⟩⟩

/-! ### C37 -/

/-- The full statement. -/
def C37_statement : Prop :=
  ∀ (env : DecodeEnv) (isatty active : Bool) (filename : String) (o1 o2 : ReadOutcome), ComposeRaisesYaml env →
    DecodeResult filename (decodeFile env isatty active filename o1 o2).1

/-- Decoding is total unless the file reader is still busy or YAML construction raises something that is not a YAML
error: any contents, any read error on either read, any scanner or parser failure, any JSON text. -/
theorem C37_total_partial (env : DecodeEnv) (isatty active : Bool) (filename : String) (o1 o2 : ReadOutcome)
    (hc : ComposeRaisesYaml env) (ha : isatty = true ∨ active = false)
    (ho : ∀ s n, o1 = .text s → env.compose s = .ok (some n) → Ordinary env.ctor n) :
    DecodeResult filename (decodeFile env isatty active filename o1 o2).1 := by
  have hr : ∀ e, (readFile isatty active o1).1 = .error e → (∃ n, e = .io n) ∨ e = .unicode := by
    intro e he
    unfold readFile at he
    rcases ha with rfl | rfl
    · cases o1 <;> simp at he <;> simp [← he]
    · cases isatty <;> cases o1 <;> simp at he <;> simp [← he]
  have hok : ∀ s, (readFile isatty active o1).1 = .ok s → o1 = .text s := by
    intro s he
    unfold readFile at he
    rcases ha with rfl | rfl
    · cases o1 <;> simp at he; simp [he]
    · cases isatty <;> cases o1 <;> simp at he <;> simp [he]
  have hload : ∀ e, (readFile isatty active o1).1.bind (yamlLoad env) = .error (.other e) → False := by
    intro e he
    cases h1 : (readFile isatty active o1).1 with
    | error e' =>
      rw [h1] at he
      simp only [Except.bind, Except.error.injEq] at he
      rcases hr _ h1 with ⟨n, hn⟩ | hn <;> rw [hn] at he <;> cases he
    | ok s =>
      rw [h1] at he
      have he : yamlLoad env s = .error (.other e) := he
      unfold yamlLoad at he
      split at he
      · rename_i e' hcomp
        rcases hc _ _ hcomp with ⟨p, l, c, rfl⟩ | ⟨p, l, c, rfl⟩ | ⟨m, rfl⟩ <;> cases he
      · cases he
      · rename_i n hcomp
        have := construct_no_py n (ho s n (hok s h1) hcomp)
        split at he
        · cases he
        · cases he
        · cases he
        · rename_i e' hpy
          exact this e' hpy
  unfold decodeFile
  dsimp only
  split
  · exact finishDecode_ok _ _
  · split
    · exact fileMatch_ok _ _
    · split
      · exact fileMatch_ok _ _
      · split
        · exact fileMatch_ok _ _
        · exact finishDecode_ok _ _
  · exact finishDecode_err _ _ _ rfl rfl
  · exact finishDecode_err _ _ _ rfl rfl
  · exact finishDecode_err _ _ _ rfl rfl
  · split
    · split
      · exact fileMatch_ok _ _
      · split
        · exact finishDecode_ok _ _
        · exact finishDecode_err _ _ _ rfl rfl
        · split
          · exact finishDecode_err _ _ _ rfl rfl
          · exact finishDecode_err _ _ _ rfl rfl
        · exact fileMatch_ok _ _
    · exact finishDecode_err _ _ _ rfl rfl
  · exact finishDecode_err _ _ _ rfl rfl
  · rename_i e he
    exact (hload e he).elim

/-- The reader of `fileinput` is left busy only by a file whose contents cannot be decoded. -/
theorem C37_reader_released (env : DecodeEnv) (isatty : Bool) (filename : String) (o1 o2 : ReadOutcome)
    (h1 : o1 ≠ .unicodeError) (h2 : o2 ≠ .unicodeError) :
    (decodeFile env isatty false filename o1 o2).2 = false := by
  have hr : ∀ o, o ≠ ReadOutcome.unicodeError → (readFile isatty false o).2 = false := by
    intro o ho
    unfold readFile
    cases isatty <;> cases o <;> simp at ho ⊢
  have h1' := hr o1 h1
  have h2' := hr o2 h2
  unfold decodeFile
  dsimp only
  split
  · exact h1'
  · repeat' split
    all_goals exact h1'
  · exact h1'
  · exact h1'
  · exact h1'
  · split
    · rw [h1']
      split
      · exact h2'
      · split
        · exact h2'
        · exact h2'
        · split <;> exact h2'
        · exact h2'
    · exact h1'
  · exact h1'
  · exact h1'

/-- When standard input is not a terminal, the file decoded after one with undecodable contents makes `decode` raise
`RuntimeError`, whatever it contains. -/
theorem C37_second_file_violated (env : DecodeEnv) (f f' : String) (o o1 o2 : ReadOutcome) :
    ∃ e, (decodeFile env false (decodeFile env false false f .unicodeError o).2 f' o1 o2).1 = .error e := by
  have h : (decodeFile env false false f .unicodeError o).2 = true := by rfl
  rw [h]
  exact ⟨_, rfl⟩

/-- `{{a: b}: c}`: a mapping key that is itself a mapping (or a list) makes `decode` raise `TypeError`. -/
theorem C37_unhashable_violated (env : DecodeEnv) (s : List Char) (o2 : ReadOutcome) (f : String)
    (h : env.compose s = .ok (some (.map mapTag [(.map mapTag [(.scalar strTag "a", .scalar strTag "b")],
      .scalar strTag "c")]))) :
    (decodeFile env true false f (.text s) o2).1 = .error (.typeError "unhashable type: 'dict_node'") := by
  have hy : yamlLoad env s = .error (.other (.typeError "unhashable type: 'dict_node'")) := by
    unfold yamlLoad
    rw [h]
    rfl
  have hb : (readFile true false (.text s)).1.bind (yamlLoad env) =
      .error (.other (.typeError "unhashable type: 'dict_node'")) := hy
  unfold decodeFile
  dsimp only
  rw [hb]

/-- `!GetAtt {a: b}` makes `decode` raise `AttributeError`. -/
theorem C37_getatt_violated (env : DecodeEnv) (s : List Char) (o2 : ReadOutcome) (f : String)
    (h : env.compose s = .ok (some (.map "!GetAtt" [(.scalar strTag "a", .scalar strTag "b")]))) :
    ∃ m, (decodeFile env true false f (.text s) o2).1 = .error (.attributeError m) := by
  have hy : yamlLoad env s = .error (.other (.attributeError "'tuple' object has no attribute 'value'")) := by
    unfold yamlLoad
    rw [h]
    rfl
  have hb : (readFile true false (.text s)).1.bind (yamlLoad env) =
      .error (.other (.attributeError "'tuple' object has no attribute 'value'")) := hy
  refine ⟨"'tuple' object has no attribute 'value'", ?_⟩
  unfold decodeFile
  dsimp only
  rw [hb]

/-! ### What is decoded and where errors are reported -/

mutual
/-- the template value has the form of the JSON value -/
inductive SameJson (textOf : JText → String) : JVal → Val → Prop
  | null : SameJson textOf .null .none
  | bool b : SameJson textOf (.bool b) (.bool b)
  | int i : SameJson textOf (.int i) (.int i)
  | flt t : SameJson textOf (.flt t) (.flt (String.ofList t))
  | str t : SameJson textOf (.str t) (.str (textOf t))
  | arr {vs xs} : SameItems textOf vs xs → SameJson textOf (.arr vs) (.list xs)
  | obj {kvs d} : SameFields textOf kvs d → SameJson textOf (.obj kvs) (.dict d)
/-- the elements of an array, one by one -/
inductive SameItems (textOf : JText → String) : List JVal → List Val → Prop
  | nil : SameItems textOf [] []
  | cons {v x vs xs} : SameJson textOf v x → SameItems textOf vs xs → SameItems textOf (v :: vs) (x :: xs)
/-- the members of an object, one by one -/
inductive SameFields (textOf : JText → String) : List (JText × JVal) → List (Key × Val) → Prop
  | nil : SameFields textOf [] []
  | cons {k v x kvs d} : SameJson textOf v x → SameFields textOf kvs d →
      SameFields textOf ((k, v) :: kvs) ((.str (textOf k), x) :: d)
end

mutual
theorem toVal_same (textOf : JText → String) : ∀ j, SameJson textOf j (JVal.toVal textOf j)
  | .null => by rw [JVal.toVal]; exact .null
  | .bool b => by rw [JVal.toVal]; exact .bool b
  | .int i => by rw [JVal.toVal]; exact .int i
  | .flt t => by rw [JVal.toVal]; exact .flt t
  | .str t => by rw [JVal.toVal]; exact .str t
  | .arr vs => by rw [JVal.toVal]; exact .arr (toVals_same textOf vs)
  | .obj kvs => by rw [JVal.toVal]; exact .obj (toPairs_same textOf kvs)
theorem toVals_same (textOf : JText → String) : ∀ vs, SameItems textOf vs (JVal.toVals textOf vs)
  | [] => by rw [JVal.toVals]; exact .nil
  | v :: vs => by rw [JVal.toVals]; exact .cons (toVal_same textOf v) (toVals_same textOf vs)
theorem toPairs_same (textOf : JText → String) : ∀ kvs, SameFields textOf kvs (JVal.toPairs textOf kvs)
  | [] => by rw [JVal.toPairs]; exact .nil
  | (k, v) :: kvs => by rw [JVal.toPairs]; exact .cons (toVal_same textOf v) (toPairs_same textOf kvs)
end

theorem readFile_text {isatty active : Bool} (ha : isatty = true ∨ active = false) (s : List Char) :
    (readFile isatty active (.text s)).1 = .ok s := by
  unfold readFile
  rcases ha with h | h
  · rw [h]; rfl
  · rw [h]; cases isatty <;> rfl

theorem finishDecode_nil {filename : String} {v t : Val} {ms : List Match}
    (h : finishDecode filename v ms = (t, [])) : t = v ∧ ms = [] := by
  unfold finishDecode at h
  split at h
  · cases h
  · cases h; exact ⟨rfl, rfl⟩

theorem readFile_ok {isatty active active' : Bool} {o : ReadOutcome} {s : List Char}
    (h : readFile isatty active o = (.ok s, active')) : o = .text s := by
  unfold readFile at h
  split at h
  · split at h <;> cases h
    rfl
  · split at h
    · cases h
    · split at h <;> cases h
      rfl

/-- A template decoded without findings is what the file contains: the value of the YAML document, or of the JSON
text. -/
theorem C37_faithful (env : DecodeEnv) (isatty active : Bool) (filename : String) (o1 o2 : ReadOutcome) (t : Val)
    (h : (decodeFile env isatty active filename o1 o2).1 = .ok (t, [])) :
    (∃ s, o1 = .text s ∧ (env.compose s = .ok none ∧ t = .dict [] ∨
      ∃ n, env.compose s = .ok (some n) ∧ yconstruct env.ctor n = .ok t)) ∨
    ∃ s j, o2 = .text s ∧ jsonLoads env.int16 s = .ok j ∧ SameJson env.textOf j t := by
  unfold decodeFile at h
  cases hr : readFile isatty active o1 with
  | mk r1 active1 =>
  rw [hr] at h
  dsimp only at h
  cases hb : r1.bind (yamlLoad env) with
  | ok v =>
    rw [hb] at h
    simp only [Except.ok.injEq] at h
    obtain ⟨rfl, _⟩ := finishDecode_nil h
    left
    cases r1 with
    | error e => cases hb
    | ok s =>
      refine ⟨s, readFile_ok hr, ?_⟩
      change yamlLoad env s = .ok t at hb
      unfold yamlLoad at hb
      cases hc : env.compose s with
      | error e => rw [hc] at hb; cases hb
      | ok n =>
        rw [hc] at hb
        cases n with
        | none => cases hb; exact .inl ⟨rfl, rfl⟩
        | some n =>
          dsimp only at hb
          cases hy : yconstruct env.ctor n with
          | ok v => rw [hy] at hb; cases hb; exact .inr ⟨n, rfl, hy⟩
          | error e => rw [hy] at hb; cases e <;> cases hb
  | error e =>
    rw [hb] at h
    cases e with
    | io n =>
      dsimp only at h
      repeat' split at h
      · simp at h
      · simp at h
      · simp at h
      · simp [finishDecode, Val.isDict] at h
    | unicode => simp [finishDecode] at h
    | cfnParse l c k m => simp [finishDecode] at h
    | parser p l c => simp [finishDecode] at h
    | yaml m => simp [finishDecode] at h
    | other e => simp at h
    | scanner p l c =>
      dsimp only at h
      split at h
      · cases hr2 : readFile isatty active1 o2 with
        | mk r2 active2 =>
        rw [hr2] at h
        dsimp only at h
        cases r2 with
        | error e => simp at h
        | ok s =>
          dsimp only at h
          cases hj : jsonLoads env.int16 s with
          | ok j =>
            rw [hj] at h
            simp only [Except.ok.injEq] at h
            obtain ⟨rfl, _⟩ := finishDecode_nil h
            exact .inr ⟨s, j, readFile_ok hr2, hj, toVal_same _ j⟩
          | error e =>
            rw [hj] at h
            cases e <;> dsimp only at h <;> (try split at h) <;> simp [finishDecode] at h
      · simp [finishDecode] at h

/-- A document without contents is an empty template. -/
theorem C37_empty_document (env : DecodeEnv) (isatty active : Bool) (filename : String) (s : List Char)
    (o2 : ReadOutcome) (ha : isatty = true ∨ active = false) (h : env.compose s = .ok none) :
    (decodeFile env isatty active filename (.text s) o2).1 = .ok (.dict [], []) := by
  unfold decodeFile
  dsimp only
  rw [readFile_text ha]
  simp [Except.bind, yamlLoad, h, finishDecode, Val.isDict]

/-- A finding at a place counted from nought is reported at the place counted from one, and it is the only finding. -/
def ReportedAt (line col width : Int) (msg filename : String) (r : PyM (Val × List Match)) : Prop :=
  ∃ m, r = .ok (.none, [m]) ∧ m.line = line + 1 ∧ m.col = col + 1 ∧ m.lineEnd = line + 1 ∧ m.colEnd = col + 1 + width ∧
    m.message = msg ∧ m.filename = filename ∧ m.rule.id = "E0000"

/-- A YAML error is reported where the parser found it. -/
theorem C37_yaml_error_place (env : DecodeEnv) (isatty active : Bool) (filename p : String) (l c : Int) (s : List Char)
    (o2 : ReadOutcome) (ha : isatty = true ∨ active = false)
    (h : env.compose s = .error (.parser p l c) ∨ env.compose s = .error (.scanner p l c) ∧
      p ≠ "found character '\\t' that cannot start any token" ∧ ¬ "found unknown escape character".toList <+: p.toList) :
    ReportedAt l c 1 p filename (decodeFile env isatty active filename (.text s) o2).1 := by
  have hr := readFile_text ha s
  unfold decodeFile
  dsimp only
  rw [hr]
  rcases h with h | ⟨h, h1, h2⟩
  · simp only [Except.bind, yamlLoad, h]
    exact ⟨_, rfl, rfl, rfl, rfl, rfl, rfl, rfl, rfl⟩
  · have ht : triesJson p = false := by
      unfold triesJson
      have h3 : startsWith p "found unknown escape character" = false := by
        rw [← Bool.not_eq_true]
        intro hs
        exact h2 (by simpa [startsWith] using hs)
      rw [h3]
      simp only [Bool.or_false, Bool.or_eq_false_iff, beq_eq_false_iff_ne, ne_eq]
      refine ⟨h1, ?_⟩
      rintro rfl
      exact h2 (List.prefix_refl _)
    simp only [Except.bind, yamlLoad, h, ht]
    exact ⟨_, rfl, rfl, rfl, rfl, rfl, rfl, rfl, rfl⟩

/-- Text that neither parser accepts is reported where the YAML parser stopped, when the JSON parser finds no value. -/
theorem C37_no_value_place (env : DecodeEnv) (isatty : Bool) (filename p : String) (l c : Int) (s s' : List Char)
    (h : env.compose s = .error (.scanner p l c))
    (hp : p = "found character '\\t' that cannot start any token" ∨ "found unknown escape character".toList <+: p.toList)
    (hj : jsonLoads env.int16 s' = .error (.std "Expecting value")) :
    ReportedAt l c 1 p filename (decodeFile env isatty false filename (.text s) (.text s')).1 := by
  have ht : triesJson p = true := by
    unfold triesJson
    rcases hp with rfl | hp
    · rfl
    · have h3 : startsWith p "found unknown escape character" = true := by simpa [startsWith] using hp
      rw [h3]
      simp
  unfold decodeFile readFile
  cases isatty <;> simp [Except.bind, yamlLoad, h, ht, hj] <;>
    exact ⟨_, rfl, rfl, rfl, rfl, rfl, rfl, rfl, rfl⟩

/-- A null value or a duplicate key is reported at its node. -/
theorem C37_construction_error_place (env : DecodeEnv) (isatty active : Bool) (filename m : String) (n : YNode)
    (s : List Char) (o2 : ReadOutcome) (ha : isatty = true ∨ active = false) (h : env.compose s = .ok (some n))
    (hy : yconstruct env.ctor n = .error (.parse m)) :
    ReportedAt (env.yamlPos n).1 (env.yamlPos n).2.1 (env.yamlPos n).2.2 m filename
      (decodeFile env isatty active filename (.text s) o2).1 := by
  have hr := readFile_text ha s
  unfold decodeFile
  dsimp only
  rw [hr]
  simp only [Except.bind, yamlLoad, h, hy]
  exact ⟨_, rfl, rfl, rfl, rfl, rfl, rfl, rfl, rfl⟩

/-! ### Examples -/

/-- A composer that knows one document. -/
def exDecodeEnv (n : Option YNode) : DecodeEnv where
  compose := fun s => if s = [] then .error (.scanner "found character '\\t' that cannot start any token" 0 0)
    else .ok n
  ctor := fun _ _ => .error (.ctor "")
  yamlPos := fun _ => (0, 0, 1)
  int16 := fun _ => none
  jsonPos := fun _ => (1, 1, 1)
  textOf := fun t => String.ofList (t.map Char.ofNat)

theorem exDecodeEnv_ok (n : Option YNode) : ComposeRaisesYaml (exDecodeEnv n) := by
  intro s e h
  simp only [exDecodeEnv] at h
  split at h
  · cases h; exact .inr (.inl ⟨_, _, _, rfl⟩)
  · cases h

theorem C37_violated : ¬ C37_statement := by
  intro h
  obtain ⟨t, ms, hr, _⟩ := h (exDecodeEnv none) false true "f" (.text []) (.text []) (exDecodeEnv_ok none)
  have hd : (decodeFile (exDecodeEnv none) false true "f" (.text []) (.text [])).1 =
    .error (.other "RuntimeError: input() already active") := by rfl
  rw [hd] at hr
  cases hr

/-- A template that is a mapping decodes without findings. -/
example : (decodeFile (exDecodeEnv (some (.map mapTag [(.scalar strTag "Resources", .map mapTag [])]))) false false "f"
    (.text ['x']) (.text [])).1 = .ok (.dict [(.str "Resources", .dict [])], []) := by rfl

/-- It satisfies the hypotheses of `C37_total_partial`. -/
example : ∀ s n, ReadOutcome.text ['x'] = .text s →
    (exDecodeEnv (some (.map mapTag [(.scalar strTag "Resources", .map mapTag [])]))).compose s = .ok (some n) →
    Ordinary (exDecodeEnv none).ctor n := by
  intro s n hs hn
  cases hs
  have hn : (Except.ok (some (YNode.map mapTag [(.scalar strTag "Resources", .map mapTag [])])) :
    Except LoadErr (Option YNode)) = .ok (some n) := hn
  cases hn
  intro x hx
  cases hx with
  | here => exact ⟨fun p hp => ⟨"Resources", by simp at hp; rw [hp]⟩, fun h => absurd h (by decide)⟩
  | key hm h =>
    simp at hm
    obtain ⟨rfl, rfl⟩ := hm
    cases h
    exact ⟨by decide, fun e he => by simp [exDecodeEnv] at he⟩
  | value hm h =>
    simp at hm
    obtain ⟨rfl, rfl⟩ := hm
    cases h with
    | here => exact ⟨by simp, fun h => absurd h (by decide)⟩
    | key hm _ => cases hm
    | value hm _ => cases hm

/-- JSON after a tab: an empty JSON text is reported as the YAML problem. -/
example : ∃ m, (decodeFile (exDecodeEnv none) false false "f" (.text []) (.text [])).1 = .ok (.none, [m]) := ⟨_, rfl⟩

-- the hypotheses of the theorems about places and about empty documents are met
example : (exDecodeEnv none).compose ['x'] = .ok none := by rfl
example : (exDecodeEnv none).compose [] = .error (.scanner "found character '\\t' that cannot start any token" 0 0) ∧
    jsonLoads (exDecodeEnv none).int16 [] = .error (.std "Expecting value") := ⟨by rfl, by simp [jsonLoads, skipWs, scanOnce]⟩
example : ({ exDecodeEnv none with compose := fun _ => .error (.parser "p" 3 4) } : DecodeEnv).compose [] =
    .error (.parser "p" 3 4) := rfl
example : yconstruct (exDecodeEnv none).ctor (.scalar nullTag "") = .error (.parse "Null value at line") ∨
    ∃ m, yconstruct (exDecodeEnv none).ctor (.scalar nullTag "") = .error (.parse m) := .inr ⟨_, by rfl⟩

/-- A file that does not exist, is a directory, may not be read or is not text is reported at its first character. -/
theorem C37_unreadable_place (env : DecodeEnv) (isatty active : Bool) (filename : String) (o o2 : ReadOutcome)
    (ha : isatty = true ∨ active = false) (msg : String)
    (h : (o = .osError 2 ∧ msg = "Template file not found: " ++ filename) ∨
      (o = .osError 21 ∧ msg = "Template references a directory, not a file: " ++ filename) ∨
      (o = .osError 13 ∧ msg = "Permission denied when accessing template file: " ++ filename) ∨
      (o = .unicodeError ∧ msg = "Cannot read file contents: " ++ filename)) :
    ReportedAt 0 0 1 msg filename (decodeFile env isatty active filename o o2).1 := by
  have hr : ∃ b, readFile isatty active o = (match o with
      | .text s => (.ok s, b) | .osError n => (.error (.io n), b) | .unicodeError => (.error .unicode, b)) := by
    unfold readFile
    rcases ha with rfl | rfl
    · cases o <;> exact ⟨active, rfl⟩
    · cases isatty
      · cases o
        · exact ⟨false, rfl⟩
        · exact ⟨false, rfl⟩
        · exact ⟨true, rfl⟩
      · cases o <;> exact ⟨false, rfl⟩
  obtain ⟨b, hr⟩ := hr
  unfold decodeFile
  dsimp only
  rw [hr]
  rcases h with ⟨rfl, rfl⟩ | ⟨rfl, rfl⟩ | ⟨rfl, rfl⟩ | ⟨rfl, rfl⟩ <;>
    exact ⟨_, rfl, rfl, rfl, rfl, rfl, rfl, rfl, rfl⟩

end CfnLint
