import Verif.Spec.Yaml
import Verif.Lemmas.Dict
/-
C36: YAML duplicates and nulls are rejected; short-form function tags equal the long form.
-/
namespace CfnLint
open Spec

/-- Construction fails. -/
def Fails {α : Type} (r : YM α) : Prop := ∃ e, r = .error e

theorem not_fails {α : Type} {r : YM α} (h : ¬ Fails r) : ∃ a, r = .ok a := by
  cases r with
  | error e => exact absurd ⟨e, rfl⟩ h
  | ok a => exact ⟨a, rfl⟩

variable {ctor : String → String → YM Val}

theorem list_fails {x : YNode} (hx : Fails (yconstruct ctor x)) : ∀ {xs : List YNode}, x ∈ xs →
    Fails (yconstructList ctor xs) := by
  intro xs
  induction xs with
  | nil => intro h; cases h
  | cons y ys ih =>
    intro hm
    unfold yconstructList
    cases hy : yconstruct ctor y with
    | error e => exact ⟨e, rfl⟩
    | ok v =>
      rcases List.mem_cons.1 hm with rfl | hm
      · obtain ⟨e, he⟩ := hx
        rw [hy] at he; cases he
      · obtain ⟨e, he⟩ := ih hm
        exact ⟨e, by simp [he]⟩

theorem pairs_fails {p : YNode × YNode} (hx : Fails (yconstruct ctor p.1) ∨ Fails (yconstruct ctor p.2))
    {strict : Bool} : ∀ {kvs : List (YNode × YNode)} {acc : List (Key × Val)}, p ∈ kvs →
    Fails (yconstructPairs ctor strict kvs acc) := by
  intro kvs
  induction kvs with
  | nil => intro acc h; cases h
  | cons q kvs ih =>
    intro acc hm
    obtain ⟨kn, vn⟩ := q
    unfold yconstructPairs
    cases hk : yconstruct ctor kn with
    | error e => exact ⟨e, rfl⟩
    | ok k =>
      cases hv : yconstruct ctor vn with
      | error e => exact ⟨e, rfl⟩
      | ok v =>
        cases hh : hashKey k with
        | error e => exact ⟨e, by simp [hh]⟩
        | ok key =>
          simp only [hh]
          rcases List.mem_cons.1 hm with rfl | hm
          · rcases hx with ⟨e, he⟩ | ⟨e, he⟩
            · simp [hk] at he
            · simp [hv] at he
          · split
            · exact ⟨_, rfl⟩
            · exact ih hm

theorem pairs_dup {kn vn : YNode} {k : Val} {key : Key} (hk : yconstruct ctor kn = .ok k) (hh : hashKey k = .ok key) :
    ∀ {kvs : List (YNode × YNode)} {acc : List (Key × Val)}, (kn, vn) ∈ kvs → dhas key acc = true →
    Fails (yconstructPairs ctor true kvs acc) := by
  intro kvs
  induction kvs with
  | nil => intro acc h; cases h
  | cons q kvs ih =>
    intro acc hm ha
    obtain ⟨kn', vn'⟩ := q
    unfold yconstructPairs
    cases hk' : yconstruct ctor kn' with
    | error e => exact ⟨e, rfl⟩
    | ok k' =>
      cases hv' : yconstruct ctor vn' with
      | error e => exact ⟨e, rfl⟩
      | ok v' =>
        cases hh' : hashKey k' with
        | error e => exact ⟨e, by simp [hh']⟩
        | ok key' =>
          simp only [hh']
          split
          · exact ⟨_, rfl⟩
          · rename_i hn
            rcases List.mem_cons.1 hm with he | hm
            · cases he
              rw [hk] at hk'; cases hk'
              rw [hh] at hh'; cases hh'
              simp [ha] at hn
            · refine ih hm ?_
              rw [dhas_iff] at ha ⊢
              rw [dset_keys]
              split
              · exact ha
              · simp [ha]

theorem pairs_dup2 {k1 v1 k2 v2 : YNode} (hs : ∀ a b, yconstruct ctor k1 = .ok a → yconstruct ctor k2 = .ok b →
      hashKey a = hashKey b) (b c : List (YNode × YNode)) :
    ∀ (a : List (YNode × YNode)) (acc : List (Key × Val)),
    Fails (yconstructPairs ctor true (a ++ (k1, v1) :: b ++ (k2, v2) :: c) acc) := by
  intro a
  induction a with
  | nil =>
    intro acc
    by_cases hf2 : Fails (yconstruct ctor k2)
    · exact pairs_fails (p := (k2, v2)) (.inl hf2) (by simp)
    obtain ⟨x2, hx2⟩ := not_fails hf2
    rw [List.nil_append, List.cons_append]
    unfold yconstructPairs
    cases hk : yconstruct ctor k1 with
    | error e => exact ⟨e, rfl⟩
    | ok k =>
      cases hv : yconstruct ctor v1 with
      | error e => exact ⟨e, rfl⟩
      | ok v =>
        cases hh : hashKey k with
        | error e => exact ⟨e, by simp [hh]⟩
        | ok key =>
          simp only [hh]
          split
          · exact ⟨_, rfl⟩
          · refine pairs_dup (vn := v2) hx2 ((hs k x2 hk hx2).symm.trans hh) (by simp) ?_
            rw [dhas_iff, dset_keys]
            split
            · assumption
            · simp
  | cons q a ih =>
    intro acc
    obtain ⟨kn', vn'⟩ := q
    rw [List.cons_append, List.cons_append]
    unfold yconstructPairs
    cases hk : yconstruct ctor kn' with
    | error e => exact ⟨e, rfl⟩
    | ok k =>
      cases hv : yconstruct ctor vn' with
      | error e => exact ⟨e, rfl⟩
      | ok v =>
        cases hh : hashKey k with
        | error e => exact ⟨e, by simp [hh]⟩
        | ok key =>
          simp only [hh]
          split
          · exact ⟨_, rfl⟩
          · exact ih _

theorem tagSuffix_short (tag : String) : tagSuffix tag = shortName tag := by
  unfold tagSuffix shortName
  split
  · rename_i r h
    simp [h]
  · rename_i h
    split
    · rename_i hc
      cases hl : tag.toList with
      | nil => simp [hl] at hc
      | cons c r =>
        simp [hl] at hc
        subst hc
        exact absurd hl (h r)
    · rfl

theorem fnName_long (n : String) : fnName n = longName n := by
  simp [fnName, longName]

theorem fnName_getatt (n : String) : fnName n = "Fn::GetAtt" ↔ n = "GetAtt" := by
  unfold fnName
  split
  · rename_i h
    rcases h with rfl | rfl <;> decide
  · constructor
    · intro h
      have : ("Fn::" ++ n).toList = ("Fn::" ++ "GetAtt").toList := by rw [h]; rfl
      rw [String.toList_append, String.toList_append, List.append_cancel_left_eq] at this
      exact String.ext_iff.2 this
    · rintro rfl; rfl

theorem shortName_eq {tag n : String} (h : shortName tag = some n) : tag = "!" ++ n := by
  unfold shortName at h
  split at h
  · rename_i hc
    cases hl : tag.toList with
    | nil => simp [hl] at hc
    | cons c r =>
      simp [hl] at hc h
      subst hc h
      apply String.ext_iff.2
      rw [hl, String.toList_append]
      simp
  · simp at h

theorem reached_fails {x t : YNode} (h : Reached x t) (hx : Fails (yconstruct ctor x)) :
    Fails (yconstruct ctor t) := by
  induction h with
  | here => exact hx
  | @item y tag xs htag hy _ ih =>
    obtain ⟨e, he⟩ := list_fails ih hy
    unfold yconstruct
    split
    · exact ⟨e, by simp [he]⟩
    · split
      · exact ⟨_, rfl⟩
      · split
        · rename_i s hs
          rw [if_neg]
          · exact ⟨e, by simp [he]⟩
          · intro hg
            rw [fnName_getatt] at hg
            subst hg
            rw [tagSuffix_short] at hs
            exact htag (shortName_eq hs)
        · exact ⟨_, rfl⟩
  | @key k v tag kvs hm _ ih =>
    obtain ⟨e, he⟩ := pairs_fails (p := (k, v)) (.inl ih) (strict := true) (acc := []) hm
    obtain ⟨e', he'⟩ := pairs_fails (p := (k, v)) (.inl ih) (strict := false) (acc := []) hm
    unfold yconstruct
    split
    · exact ⟨e, by simp [he]⟩
    · split
      · exact ⟨_, rfl⟩
      · split
        · split
          · split
            · rename_i hn; rw [hn] at hm; cases hm
            · exact ⟨_, rfl⟩
          · exact ⟨e', by simp [he']⟩
        · exact ⟨_, rfl⟩
  | @value k v tag kvs hm _ ih =>
    obtain ⟨e, he⟩ := pairs_fails (p := (k, v)) (.inr ih) (strict := true) (acc := []) hm
    obtain ⟨e', he'⟩ := pairs_fails (p := (k, v)) (.inr ih) (strict := false) (acc := []) hm
    unfold yconstruct
    split
    · exact ⟨e, by simp [he]⟩
    · split
      · exact ⟨_, rfl⟩
      · split
        · split
          · split
            · rename_i hn; rw [hn] at hm; cases hm
            · exact ⟨_, rfl⟩
          · exact ⟨e', by simp [he']⟩
        · exact ⟨_, rfl⟩

theorem null_fails (s : String) : Fails (yconstruct ctor (.scalar nullTag s)) :=
  ⟨.parse "Null value", by
    rw [yconstruct, if_neg (show ¬ nullTag = strTag by decide), if_pos rfl]⟩

/-! ### Duplicates and nulls -/

/-- **C36** the tags of the YAML core schema, by name: a text is taken as it is written, an empty value is refused, a sequence is the list
of its elements and a mapping an object. -/
theorem C36_tags (ctor : String → String → YM Val) (s : String) (xs : List YNode) (kvs : List (YNode × YNode)) :
    yconstruct ctor (.scalar "tag:yaml.org,2002:str" s) = .ok (.str s) ∧
    yconstruct ctor (.scalar "tag:yaml.org,2002:null" s) = .error (.parse "Null value") ∧
    (∀ vs, yconstruct ctor (.seq "tag:yaml.org,2002:seq" xs) = .ok vs ↔ ∃ l, yconstructList ctor xs = .ok l ∧ vs = .list l) ∧
    (∀ v, yconstruct ctor (.map "tag:yaml.org,2002:map" kvs) = .ok v ↔ ∃ d, yconstructPairs ctor true kvs [] = .ok d ∧ v = .dict d) := by
  refine ⟨?_, ?_, fun vs => ?_, fun v => ?_⟩
  · rw [yconstruct, if_pos (by decide)]
  · rw [yconstruct, if_neg (by decide), if_pos (by decide)]
  · rw [yconstruct, if_pos (by decide)]
    cases yconstructList ctor xs with
    | error e => simp
    | ok l => simp [eq_comm]
  · rw [yconstruct, if_pos (by decide)]
    cases yconstructPairs ctor true kvs [] with
    | error e => simp
    | ok l => simp [eq_comm]

/-- The full statement: a duplicated or null-valued key anywhere makes construction fail. -/
def C36_statement : Prop :=
  ∀ (ctor : String → String → YM Val) (t : YNode) (tag : String) (kvs : List (YNode × YNode)),
    SubNode (.map tag kvs) t → DupEntries kvs ∨ NullEntry kvs → Fails (yconstruct ctor t)

/-- A null value is rejected wherever it stands, except inside the list of a `!GetAtt`. -/
theorem C36_null_partial (ctor : String → String → YM Val) (t : YNode) (tag : String)
    (kvs : List (YNode × YNode)) (h : Reached (.map tag kvs) t) (hn : NullEntry kvs) :
    Fails (yconstruct ctor t) := by
  obtain ⟨k, s, hm⟩ := hn
  refine reached_fails h (reached_fails (.value hm (.here _)) (null_fails s))

/-- Nulls are rejected in lists too. -/
theorem C36_null_anywhere_partial (ctor : String → String → YM Val) (t : YNode) (s : String)
    (h : Reached (.scalar nullTag s) t) : Fails (yconstruct ctor t) :=
  reached_fails h (null_fails s)

/-- A mapping without a function tag that has a duplicated key is rejected wherever it stands, except inside the list
of a `!GetAtt`. -/
theorem C36_duplicate_partial (ctor : String → String → YM Val) (t : YNode) (kvs : List (YNode × YNode))
    (h : Reached (.map mapTag kvs) t) (hd : DupEntries kvs) : Fails (yconstruct ctor t) := by
  obtain ⟨a, b, c, k, v, w, rfl⟩ := hd
  refine reached_fails h ?_
  obtain ⟨e, he⟩ := pairs_dup2 (ctor := ctor) (k1 := k) (v1 := v) (k2 := k) (v2 := w)
    (fun x y hx hy => by rw [hx] at hy; cases hy; rfl) b c a []
  refine ⟨e, ?_⟩
  rw [yconstruct, if_pos rfl]
  simp only [he]

/-- Two entries whose keys are different texts but one key for Python, like `true` and `1` or `0x1` and `1`,
are rejected as well. -/
theorem C36_equal_keys_partial (ctor : String → String → YM Val) (t : YNode) (a b c : List (YNode × YNode))
    (k1 v1 k2 v2 : YNode) (x y : Val) (h : Reached (.map mapTag (a ++ (k1, v1) :: b ++ (k2, v2) :: c)) t)
    (h1 : yconstruct ctor k1 = .ok x) (h2 : yconstruct ctor k2 = .ok y) (hs : SameKey x y) :
    Fails (yconstruct ctor t) := by
  refine reached_fails h ?_
  obtain ⟨e, he⟩ := pairs_dup2 (ctor := ctor) (k1 := k1) (v1 := v1) (k2 := k2) (v2 := v2)
    (fun x' y' hx hy => by
      rw [h1] at hx; rw [h2] at hy
      cases hx; cases hy
      cases hs <;> rfl) b c a []
  refine ⟨e, ?_⟩
  rw [yconstruct, if_pos rfl]
  simp only [he]

-- `{true: a, 1: b}`
example : Fails (yconstruct (fun tag _ => .ok (if tag = "b" then .bool true else .int 1))
    (.map mapTag [(.scalar "b" "true", .scalar strTag "a"), (.scalar "i" "1", .scalar strTag "b")])) :=
  C36_equal_keys_partial _ _ [] [] [] _ _ _ _ (.bool true) (.int 1) (.here _) rfl rfl .trueOne

/-- Keys Python distinguishes do not collide. -/
theorem hashKey_same (x y : Val) (k : Key) (hx : hashKey x = .ok k) (hy : hashKey y = .ok k) : SameKey x y := by
  cases x <;> simp [hashKey] at hx <;> cases y <;> simp [hashKey] at hy <;> subst hx
  case bool.bool b1 b2 => cases b1 <;> cases b2 <;> simp at hy <;> constructor
  case bool.int b i =>
    cases b <;> simp at hy <;> subst hy <;> constructor
  case bool.str => simp at hy
  case int.bool i b => cases b <;> simp at hy <;> subst hy <;> constructor
  case int.int => simp at hy; subst hy; constructor
  case int.str => simp at hy
  case str.bool => simp at hy
  case str.int => simp at hy
  case str.str => simp at hy; subst hy; constructor

theorem pairs_accept {ctor : String → String → YM Val} : ∀ (kvs : List (YNode × YNode)) (acc : List (Key × Val)),
    (∀ p ∈ kvs, ∃ x, yconstruct ctor p.1 = .ok x ∧ SameKey x x) → (∀ p ∈ kvs, ∃ v, yconstruct ctor p.2 = .ok v) →
    kvs.Pairwise (fun p q => ∀ x y, yconstruct ctor p.1 = .ok x → yconstruct ctor q.1 = .ok y → ¬ SameKey x y) →
    (∀ p ∈ kvs, ∀ x k, yconstruct ctor p.1 = .ok x → hashKey x = .ok k → dhas k acc = false) →
    ∃ d, yconstructPairs ctor true kvs acc = .ok d
  | [], acc, _, _, _, _ => ⟨acc, rfl⟩
  | (kn, vn) :: rest, acc, hk, hv, hd, ha => by
    obtain ⟨x, hx, hxx⟩ := hk _ List.mem_cons_self
    obtain ⟨v, hv1⟩ := hv _ List.mem_cons_self
    obtain ⟨key, hkey⟩ : ∃ key, hashKey x = .ok key := by cases hxx <;> exact ⟨_, rfl⟩
    have hno := ha _ List.mem_cons_self x key hx hkey
    obtain ⟨d, hd'⟩ := pairs_accept rest (dset key v acc) (fun p hp => hk p (List.mem_cons_of_mem _ hp))
      (fun p hp => hv p (List.mem_cons_of_mem _ hp)) (List.pairwise_cons.1 hd).2 (by
        intro p hp y k hy hyk
        have h1 := ha p (List.mem_cons_of_mem _ hp) y k hy hyk
        have hne : key ≠ k := by
          rintro rfl
          exact (List.pairwise_cons.1 hd).1 p hp x y hx hy (hashKey_same x y key hkey hyk)
        rw [dhas] at h1 ⊢
        rw [dlookup_dset, if_neg hne]
        exact h1)
    refine ⟨d, ?_⟩
    dsimp only at hx hv1
    unfold yconstructPairs
    simp only [hx, hv1, hkey, hno]
    exact hd'

/-- A mapping whose keys are text, numbers or Booleans, no two of them one key for Python, and whose keys
and values can be constructed, is accepted. -/
theorem C36_distinct_accepted (ctor : String → String → YM Val) (kvs : List (YNode × YNode))
    (hk : ∀ p ∈ kvs, ∃ x, yconstruct ctor p.1 = .ok x ∧ SameKey x x)
    (hv : ∀ p ∈ kvs, ∃ v, yconstruct ctor p.2 = .ok v)
    (hd : kvs.Pairwise (fun p q => ∀ x y, yconstruct ctor p.1 = .ok x → yconstruct ctor q.1 = .ok y →
      ¬ SameKey x y)) :
    ∃ d, yconstruct ctor (.map mapTag kvs) = .ok (.dict d) := by
  obtain ⟨d, h⟩ := pairs_accept kvs [] hk hv hd (fun _ _ _ _ _ _ => rfl)
  refine ⟨d, ?_⟩
  rw [yconstruct, if_pos rfl]
  simp only [h]

example : ∃ d, yconstruct (fun _ _ => .ok (.bool false)) (.map mapTag
    [(.scalar strTag "0", .scalar strTag "a"), (.scalar "b" "no", .scalar strTag "b")]) = .ok (.dict d) := by
  refine C36_distinct_accepted _ _ ?_ ?_ ?_
  · intro p hp
    simp only [List.mem_cons, List.not_mem_nil, or_false] at hp
    rcases hp with rfl | rfl
    · exact ⟨.str "0", rfl, .str _⟩
    · exact ⟨.bool false, rfl, .bool _⟩
  · intro p hp
    simp only [List.mem_cons, List.not_mem_nil, or_false] at hp
    rcases hp with rfl | rfl <;> exact ⟨_, rfl⟩
  · simp only [List.pairwise_cons, List.mem_singleton, forall_eq, List.not_mem_nil, List.Pairwise.nil, and_true,
      false_imp_iff, implies_true]
    intro x y hx hy hs
    cases hx
    cases hy
    cases hs

/-- `!Transform {Name: a, Name: b}` is accepted. -/
theorem C36_duplicate_violated (ctor : String → String → YM Val) :
    yconstruct ctor (.map "!Transform" [(.scalar strTag "Name", .scalar strTag "a"),
      (.scalar strTag "Name", .scalar strTag "b")]) =
    .ok (.dict [(.str "Fn::Transform", .dict [(.str "Name", .str "b")])]) := by rfl

theorem C36_violated : ¬ C36_statement := by
  intro h
  obtain ⟨e, he⟩ := h (fun _ _ => .error (.ctor "")) _ _ _ (.here (.map "!Transform"
    [(.scalar strTag "Name", .scalar strTag "a"), (.scalar strTag "Name", .scalar strTag "b")]))
    (.inl ⟨[], [], [], _, _, _, rfl⟩)
  rw [C36_duplicate_violated] at he
  cases he

/-! ### Short forms -/

theorem splitDot_parts (s : String) : splitDot s = (getAttParts s).map Val.str := by
  have key : ∀ l : List Char,
      l.takeWhile (· ≠ '.') = l.take (l.findIdx (· == '.')) ∧
      l.dropWhile (· ≠ '.') = l.drop (l.findIdx (· == '.')) := by
    intro l
    induction l with
    | nil => simp
    | cons c l ih =>
      by_cases hc : c = '.'
      · subst hc; simp [List.findIdx_cons]
      · obtain ⟨h2, h3⟩ := ih
        have hb : (c == '.') = false := by simpa using hc
        simp only [ne_eq, decide_not] at h2 h3
        simp [hc, hb, List.findIdx_cons, h2, h3]
  obtain ⟨h2, h3⟩ := key s.toList
  unfold splitDot getAttParts
  simp only
  split
  · rename_i hd
    rw [h3, List.drop_eq_nil_iff] at hd
    rw [if_neg (by omega)]
    rfl
  · rename_i c r hd
    rw [h3] at hd
    have hlt : s.toList.findIdx (· == '.') < s.toList.length := by
      by_cases hn : s.toList.findIdx (· == '.') < s.toList.length
      · exact hn
      · rw [List.drop_eq_nil_iff.2 (by omega)] at hd
        cases hd
    rw [if_pos hlt, h2]
    have : s.toList.drop (s.toList.findIdx (· == '.') + 1) = r := by
      rw [← List.drop_drop, hd]; rfl
    rw [this]
    rfl

theorem construct_strs (ss : List String) :
    yconstructList ctor (ss.map (fun p => YNode.scalar strTag p)) = .ok (ss.map Val.str) := by
  induction ss with
  | nil => rfl
  | cons s ss ih =>
    rw [List.map_cons, yconstructList, yconstruct, if_pos rfl]
    simp only [ih, List.map_cons]

theorem raw_strs {xs : List YNode} (h : ∀ x ∈ xs, ∃ s, x = YNode.scalar strTag s) :
    ∃ ss : List String, xs = ss.map (fun p => YNode.scalar strTag p) ∧ rawValues xs = .ok (ss.map Val.str) := by
  induction xs with
  | nil => exact ⟨[], rfl, rfl⟩
  | cons x xs ih =>
    obtain ⟨s, rfl⟩ := h x (by simp)
    obtain ⟨ss, h1, h2⟩ := ih (fun y hy => h y (by simp [hy]))
    exact ⟨s :: ss, by simp [h1], by simp [rawValues, rawValue, h2]⟩

theorem construct_longCall (n : String) (arg : YNode) :
    yconstruct ctor (longCall n arg) = match yconstruct ctor arg with
      | .error e => .error e
      | .ok v => .ok (wrapFn n v) := by
  unfold longCall
  rw [yconstruct, if_pos rfl, yconstructPairs, yconstruct, if_pos rfl]
  cases hv : yconstruct ctor arg with
  | error e => rfl
  | ok v => simp [hashKey, dhas, dlookup, dset, yconstructPairs, wrapFn, fnName_long]

/-- With distinct text keys the duplicate check makes no difference. -/
theorem pairs_strict : ∀ (kvs : List (YNode × YNode)) (ks : List String) (acc : List (Key × Val)), ks.Nodup →
    kvs.map Prod.fst = ks.map (YNode.scalar strTag) → (∀ k ∈ ks, Key.str k ∉ acc.map Prod.fst) →
    yconstructPairs ctor true kvs acc = yconstructPairs ctor false kvs acc := by
  intro kvs
  induction kvs with
  | nil => intros; rfl
  | cons q kvs ih =>
    intro ks acc hn hk ha
    obtain ⟨kn, vn⟩ := q
    cases ks with
    | nil => simp at hk
    | cons k ks =>
      simp only [List.map_cons, List.cons.injEq] at hk
      obtain ⟨rfl, hk⟩ := hk
      rw [List.nodup_cons] at hn
      have hacc : dhas (Key.str k) acc = false := by
        rw [Bool.eq_false_iff]
        intro hc
        exact ha k (by simp) (dhas_iff.1 hc)
      rw [yconstructPairs, yconstructPairs, yconstruct, if_pos rfl]
      simp only [hashKey, hacc, Bool.and_false]
      cases yconstruct ctor vn with
      | error e => rfl
      | ok v =>
        simp only
        refine ih ks _ hn.2 hk ?_
        intro k' hk' hc
        rw [dset_keys] at hc
        split at hc
        · exact ha k' (by simp [hk']) hc
        · rcases List.mem_append.1 hc with hc | hc
          · exact ha k' (by simp [hk']) hc
          · simp at hc
            subst hc
            exact hn.1 hk'

theorem shortName_std : shortName strTag = none ∧ shortName seqTag = none ∧ shortName mapTag = none ∧
    shortName nullTag = none := by
  refine ⟨?_, ?_, ?_, ?_⟩ <;> decide

theorem longPairs_keys (resolve : String → String) (kvs : List (YNode × YNode)) (ks : List String)
    (h : kvs.map Prod.fst = ks.map (YNode.scalar strTag)) :
    (longPairs resolve kvs).map Prod.fst = ks.map (YNode.scalar strTag) := by
  induction kvs generalizing ks with
  | nil =>
    cases ks with
    | nil => rfl
    | cons _ _ => simp at h
  | cons q kvs ih =>
    obtain ⟨k, v⟩ := q
    cases ks with
    | nil => simp at h
    | cons k' ks =>
      simp only [List.map_cons, List.cons.injEq] at h
      obtain ⟨rfl, h⟩ := h
      rw [longPairs, List.map_cons, List.map_cons, ih ks h, longForm, shortName_std.1]

mutual
theorem long_eq (resolve : String → String) : ∀ t : YNode, (∀ x, SubNode x t → PlainCall resolve x) →
    yconstruct ctor t = yconstruct ctor (longForm resolve t)
  | .scalar tag v, h => by
    have h0 := h _ (.here _)
    rw [longForm]
    cases hs : shortName tag with
    | none => rfl
    | some n =>
      have hne : tag ≠ strTag ∧ tag ≠ nullTag ∧ tag ≠ mapTag ∧ tag ≠ seqTag := by
        refine ⟨?_, ?_, ?_, ?_⟩ <;> rintro rfl <;> revert hs <;> simp [shortName_std]
      rw [yconstruct, if_neg hne.1, if_neg hne.2.1, if_neg hne.2.2.1, if_neg hne.2.2.2, tagSuffix_short, hs]
      simp only [fnName_getatt]
      by_cases hg : n = "GetAtt"
      · rw [if_pos hg, if_pos hg, construct_longCall, yconstruct, if_pos rfl, construct_strs]
        simp only [splitDot_parts]
      · rw [if_neg hg, if_neg hg, construct_longCall, h0 n hs hg, yconstruct, if_pos rfl]
  | .seq tag xs, h => by
    have h0 := h _ (.here _)
    have hl := long_eq_list resolve xs (fun y hy x hx => h x (.item hy hx))
    rw [longForm]
    cases hs : shortName tag with
    | none =>
      rw [yconstruct.eq_2, yconstruct.eq_2, hl]
      simp only [tagSuffix_short, hs]
    | some n =>
      have hne : tag ≠ nullTag ∧ tag ≠ seqTag := by
        refine ⟨?_, ?_⟩ <;> rintro rfl <;> revert hs <;> simp [shortName_std]
      simp only
      rw [construct_longCall, yconstruct.eq_2, if_neg hne.2, if_neg hne.1, tagSuffix_short, hs]
      simp only [fnName_getatt]
      rw [yconstruct.eq_2, if_pos rfl]
      by_cases hg : n = "GetAtt"
      · rw [if_pos hg]
        subst hg
        obtain ⟨ss, hss, hr⟩ := raw_strs (h0 hs)
        rw [hr, ← hl, hss, construct_strs]
      · rw [if_neg hg, hl]
        cases yconstructList ctor (longForms resolve xs) <;> rfl
  | .map tag kvs, h => by
    have h0 := h _ (.here _)
    have hl := fun strict acc => long_eq_pairs resolve strict kvs acc
      (fun p hp x hx => h x (.key (v := p.2) hp hx)) (fun p hp x hx => h x (.value (k := p.1) hp hx))
    rw [longForm]
    cases hs : shortName tag with
    | none =>
      rw [yconstruct.eq_3, yconstruct.eq_3, hl]
      simp only [tagSuffix_short, hs]
    | some n =>
      have hne : tag ≠ nullTag ∧ tag ≠ mapTag := by
        refine ⟨?_, ?_⟩ <;> rintro rfl <;> revert hs <;> simp [shortName_std]
      obtain ⟨hg, ks, hnd, hks⟩ := h0 n hs
      simp only
      rw [construct_longCall, yconstruct.eq_3, if_neg hne.2, if_neg hne.1, tagSuffix_short, hs]
      simp only [fnName_getatt]
      rw [yconstruct.eq_3, if_pos rfl, if_neg hg, hl,
        pairs_strict (longPairs resolve kvs) ks [] hnd (longPairs_keys resolve kvs ks hks) (by simp)]
      cases yconstructPairs ctor false (longPairs resolve kvs) [] <;> rfl
theorem long_eq_list (resolve : String → String) : ∀ xs : List YNode,
    (∀ y ∈ xs, ∀ x, SubNode x y → PlainCall resolve x) →
    yconstructList ctor xs = yconstructList ctor (longForms resolve xs)
  | [], _ => by rw [longForms]
  | x :: xs, h => by
    rw [longForms, yconstructList, yconstructList, ← long_eq resolve x (h x (by simp)),
      ← long_eq_list resolve xs (fun y hy => h y (by simp [hy]))]
theorem long_eq_pairs (resolve : String → String) (strict : Bool) : ∀ (kvs : List (YNode × YNode))
    (acc : List (Key × Val)), (∀ p ∈ kvs, ∀ x, SubNode x p.1 → PlainCall resolve x) →
    (∀ p ∈ kvs, ∀ x, SubNode x p.2 → PlainCall resolve x) →
    yconstructPairs ctor strict kvs acc = yconstructPairs ctor strict (longPairs resolve kvs) acc
  | [], _, _, _ => by rw [longPairs]
  | (k, v) :: kvs, acc, h1, h2 => by
    rw [longPairs, yconstructPairs, yconstructPairs, ← long_eq resolve k (h1 (k, v) (by simp)),
      ← long_eq resolve v (h2 (k, v) (by simp))]
    have := fun acc => long_eq_pairs resolve strict kvs acc (fun p hp => h1 p (by simp [hp]))
      (fun p hp => h2 p (by simp [hp]))
    simp only [← this]
end

/-- The full statement: a tree and its long form construct the same. -/
def C36_short_statement : Prop :=
  ∀ (ctor : String → String → YM Val) (resolve : String → String) (t : YNode),
    yconstruct ctor t = yconstruct ctor (longForm resolve t)

/-- Where scalar arguments are text, `!GetAtt` lists hold only text and mapping arguments have distinct text keys,
short-form tags produce the same value, or the same failure, as the long form. -/
theorem C36_short_form_partial (ctor : String → String → YM Val) (resolve : String → String) (t : YNode)
    (h : ∀ x, SubNode x t → PlainCall resolve x) :
    yconstruct ctor t = yconstruct ctor (longForm resolve t) :=
  long_eq resolve t h

/-- `!Ref 1` is a reference to the text `1`, `Ref: 1` one to the number. -/
theorem C36_short_violated : ¬ C36_short_statement := by
  intro h
  have := h (fun _ _ => .ok (.int 1)) (fun _ => "tag:yaml.org,2002:int") (.scalar "!Ref" "1")
  revert this
  decide +kernel

/-- `!GetAtt [A, !Ref B]` loses the function: the second item becomes the text `B`. -/
theorem C36_getatt_violated (ctor : String → String → YM Val) :
    yconstruct ctor (.seq "!GetAtt" [.scalar strTag "A", .scalar "!Ref" "B"]) =
    .ok (.dict [(.str "Fn::GetAtt", .list [.str "A", .str "B"])]) := by rfl

/-! ### Examples -/

/-- `Key: !If [Cond, !Sub '${A}', {Fn::GetAtt: [A, B]}]`, `Other: !GetAtt A.B.C` -/
def exYaml : YNode :=
  .map mapTag [(.scalar strTag "Key", .seq "!If" [.scalar strTag "Cond", .scalar "!Sub" "${A}"]),
    (.scalar strTag "Other", .scalar "!GetAtt" "A.B.C")]

example : yconstruct (fun _ _ => .error (.ctor "")) exYaml =
    .ok (.dict [(.str "Key", .dict [(.str "Fn::If", .list [.str "Cond", .dict [(.str "Fn::Sub", .str "${A}")]])]),
      (.str "Other", .dict [(.str "Fn::GetAtt", .list [.str "A", .str "B.C"])])]) := by rfl

example : ∀ x, SubNode x exYaml → PlainCall (fun _ => strTag) x := by
  have hstr : ∀ s x, SubNode x (YNode.scalar strTag s) → PlainCall (fun _ => strTag) x := by
    intro s x h
    cases h
    intro n _ _; rfl
  intro x h
  unfold exYaml at h
  cases h with
  | here => intro n hn; revert hn; simp [shortName_std]
  | key hm h =>
    simp only [List.mem_cons, Prod.mk.injEq, List.not_mem_nil, or_false] at hm
    rcases hm with ⟨rfl, rfl⟩ | ⟨rfl, rfl⟩ <;> exact hstr _ _ h
  | value hm h =>
    simp only [List.mem_cons, Prod.mk.injEq, List.not_mem_nil, or_false] at hm
    rcases hm with ⟨rfl, rfl⟩ | ⟨rfl, rfl⟩
    · cases h with
      | here => intro hn; exact absurd hn (by decide)
      | item hm h =>
        simp only [List.mem_cons, List.not_mem_nil, or_false] at hm
        rcases hm with rfl | rfl
        · exact hstr _ _ h
        · cases h; intro n _ _; rfl
    · cases h
      intro n _ _; rfl

example : Fails (yconstruct ctor (.seq seqTag [.map mapTag [(.scalar strTag "a", .scalar strTag "1"),
    (.scalar strTag "b", .scalar strTag "1"), (.scalar strTag "a", .scalar strTag "2")]])) :=
  C36_duplicate_partial ctor _ _ (.item (by decide) (List.mem_singleton.2 rfl) (.here _))
    ⟨[], [_], [], _, _, _, rfl⟩

example : Fails (yconstruct ctor (.seq "!If" [.map "!Sub" [(.scalar strTag "a", .scalar nullTag "~")]])) :=
  C36_null_partial ctor _ _ _ (.item (by decide) (List.mem_singleton.2 rfl) (.here _)) ⟨_, _, List.mem_singleton.2 rfl⟩

end CfnLint
