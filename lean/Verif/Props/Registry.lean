import Verif.Spec.Registry
import Verif.Props.ResProps
import Verif.Lemmas.Runner
import Verif.Props.Pipeline
/-
C105: resources that have a schema of their own.
-/
namespace CfnLint
open Spec

theorem hasWord_iff {w s : String} : HasWord w s ↔ w.toList <:+: s.toList := by
  constructor
  · rintro ⟨a, b, rfl⟩
    exact ⟨a.toList, b.toList, by simp⟩
  · rintro ⟨a, b, h⟩
    exact ⟨String.ofList a, String.ofList b, String.toList_injective (by simp [← h])⟩

theorem dynRefFrom_iff (l : List Char) : dynRefFrom l = true ↔ ∃ a w b, l = a ++ "{{resolve:".toList ++ w ++ "}}".toList ++ b ∧ w ≠ [] := by
  have here : ∀ l : List Char, ("{{resolve:".toList.isPrefixOf l && decide ("}}".toList <:+: l.drop 11)) = true ↔
      ∃ w b, l = "{{resolve:".toList ++ w ++ "}}".toList ++ b ∧ w ≠ [] := by
    intro l
    rw [Bool.and_eq_true, List.isPrefixOf_iff_prefix, decide_eq_true_eq]
    constructor
    · rintro ⟨⟨r, rfl⟩, a, b, h⟩
      cases r with
      | nil =>
        have : ("{{resolve:".toList ++ ([] : List Char)).drop 11 = [] := by decide
        rw [this] at h
        simp at h
      | cons c r =>
        have : ("{{resolve:".toList ++ (c :: r)).drop 11 = r := rfl
        rw [this] at h
        exact ⟨c :: a, b, by rw [← h]; simp, by simp⟩
    · rintro ⟨w, b, rfl, hw⟩
      cases w with
      | nil => exact absurd rfl hw
      | cons c w =>
        refine ⟨⟨c :: w ++ "}}".toList ++ b, by simp⟩, w, b, ?_⟩
        rfl
  induction l with
  | nil =>
    simp only [dynRefFrom, Bool.false_eq_true, false_iff]
    rintro ⟨a, w, b, h, -⟩
    have := congrArg List.length h
    simp at this
  | cons c cs ih =>
    rw [dynRefFrom, Bool.or_eq_true, here]
    refine (or_congr Iff.rfl ih).trans ?_
    constructor
    · rintro (⟨w, b, h, hw⟩ | ⟨a, w, b, h, hw⟩)
      · exact ⟨[], w, b, by simpa using h, hw⟩
      · exact ⟨c :: a, w, b, by simp [h], hw⟩
    · rintro ⟨a, w, b, h, hw⟩
      cases a with
      | nil => exact .inl ⟨w, b, by simpa using h, hw⟩
      | cons d a =>
        simp only [List.cons_append, List.cons.injEq] at h
        exact .inr ⟨a, w, b, h.2, hw⟩

/-- C105: the test for syntax of templates is one for words in the text. -/
theorem C105_syntax (s : String) : hasSyntax s = true ↔ SyntaxIn s := by
  have h1 : hasDynRef s = true ↔ DynRefIn s := by
    rw [hasDynRef, dynRefFrom_iff]
    constructor
    · rintro ⟨a, w, b, h, hw⟩
      refine ⟨String.ofList a, String.ofList w, String.ofList b, String.toList_injective (by simp [h]), ?_⟩
      intro e
      have := congrArg String.toList e
      simp at this
      exact hw this
    · rintro ⟨a, w, b, rfl, hw⟩
      refine ⟨a.toList, w.toList, b.toList, by simp, fun e => hw ?_⟩
      exact String.toList_injective (by simpa using e)
  unfold hasSyntax SyntaxIn
  rw [Bool.or_eq_true, Bool.or_eq_true, h1, List.any_eq_true, decide_eq_true_eq, ← hasWord_iff, or_assoc]
  simp only [decide_eq_true_eq, ← hasWord_iff]
  constructor
  · rintro (h | ⟨w, h, h'⟩ | h)
    · exact .inl h
    · refine .inr ⟨w, ?_, h'⟩
      simp only [syntaxWords, List.mem_cons, List.not_mem_nil, or_false] at h ⊢
      tauto
    · exact .inr ⟨"Fn::", by simp, h⟩
  · rintro (h | ⟨w, h, h'⟩)
    · exact .inl h
    · simp only [List.mem_cons, List.not_mem_nil, or_false] at h
      by_cases hf : w = "Fn::"
      · exact .inr (.inr (hf ▸ h'))
      · refine .inr (.inl ⟨w, ?_, h'⟩)
        simp only [syntaxWords, List.mem_cons, List.not_mem_nil, or_false]
        tauto

theorem resourceProps_iff {t : Val} (hw : t.WF) {ty : String} {name : Key} {props : Val} :
    (∃ r, (name, r) ∈ resourcesOfType [ty] t ∧ (dlookup (Key.str "Properties") r).getD (.dict []) = props) ↔ ResourceProps t ty name props := by
  simp only [resourcesOfType_iff (List.cons_ne_nil _ _)]
  constructor
  · rintro ⟨r, ⟨top, rs, ty', rfl, h1, h2, h3, h4⟩, h5⟩
    cases List.mem_singleton.1 h4
    refine ⟨rs, r, .key (dlookup_mem h1) .here, h2, dlookup_mem h3, ?_⟩
    have hwr : (Val.dict r).WF := at_wf (.key (dlookup_mem h1) (.key h2 .here)) hw
    rw [Val.WF] at hwr
    cases hd : dlookup (Key.str "Properties") r with
    | none =>
      rw [hd] at h5
      refine .inr ⟨fun v hv => ?_, h5.symm⟩
      rw [dlookup_of_mem hwr.1 hv] at hd
      cases hd
    | some v =>
      rw [hd] at h5
      cases h5
      exact .inl (dlookup_mem hd)
  · rintro ⟨rs, r, h1, h2, h3, h4⟩
    have hwr : (Val.dict r).WF := at_wf (at_append (p := [.str "Resources"]) h1 (at_dict_one.2 h2)) hw
    generalize e : [Key.str "Resources"] = pr at h1
    cases h1 with
    | here => cases e
    | idx _ _ => cases e
    | @key top _ _ _ _ hm h1 =>
      cases e
      cases h1
      rw [Val.WF] at hw hwr
      refine ⟨r, ⟨top, rs, ty, rfl, dlookup_of_mem hw.1 hm, h2, dlookup_of_mem hwr.1 h3, by simp⟩, ?_⟩
      rcases h4 with h4 | ⟨h4, rfl⟩
      · rw [dlookup_of_mem hwr.1 h4]
        rfl
      · cases hd : dlookup (Key.str "Properties") r with
        | none => rfl
        | some v => exact absurd (dlookup_mem hd) (h4 v)

/-- schemas have the name of a type, and validation ends -/
structure GoodSchemas (validate : Val → Val → PyM (Option String)) (schemas : List Val) : Prop where
  names : ∀ s ∈ schemas, ∃ kvs ty, s = .dict kvs ∧ (kvs.map Prod.fst).Nodup ∧ (Key.str "typeName", Val.str ty) ∈ kvs
  valid : ∀ s ∈ schemas, ∀ v, ∃ r, validate v s = .ok r

/-- C105: the findings are the invalid properties of resources of the type of a schema, where those have no syntax of templates in their text. -/
theorem C105_exact_partial {shown : Val → String} {validate : Val → Val → PyM (Option String)} {schemas : List Val} {t : Val} (hw : t.WF) (hs : GoodSchemas validate schemas) :
    ∃ l, registryRule shown validate schemas t = .ok l ∧ ∀ p m, (p, m) ∈ l ↔ ∃ s ∈ schemas, ∃ kvs ty name props, s = .dict kvs ∧ (Key.str "typeName", Val.str ty) ∈ kvs ∧
      ResourceProps t ty name props ∧ ¬ SyntaxIn (shown props) ∧ validate props s = .ok (some m) ∧ p = [.str "Resources", name, .str "Properties"] := by
  obtain ⟨l, h1, h2⟩ := collectM_spec (as := schemas) (f := schemaStep shown validate t)
    (P := fun s pm => ∃ kvs ty name props, s = .dict kvs ∧ (Key.str "typeName", Val.str ty) ∈ kvs ∧
      ResourceProps t ty name props ∧ ¬ SyntaxIn (shown props) ∧ validate props s = .ok (some pm.2) ∧ pm.1 = [.str "Resources", name, .str "Properties"]) (by
      intro s hm
      obtain ⟨kvs, ty, rfl, hnd, hty⟩ := hs.names s hm
      have hd := dlookup_of_mem hnd hty
      obtain ⟨l, h1, h2⟩ := collectM_spec (as := resourcesOfType [ty] t) (f := schemaResource shown validate (.dict kvs))
        (P := fun nr pm => ∃ props, (dlookup (Key.str "Properties") nr.2).getD (.dict []) = props ∧ ¬ SyntaxIn (shown props) ∧ validate props (.dict kvs) = .ok (some pm.2) ∧
          pm.1 = [.str "Resources", nr.1, .str "Properties"]) (by
          rintro ⟨name, r⟩ -
          unfold schemaResource
          simp only
          by_cases hx : hasSyntax (shown ((dlookup (Key.str "Properties") r).getD (.dict []))) = true
          · rw [if_pos hx]
            refine ⟨[], rfl, fun pm => ?_⟩
            simp only [List.not_mem_nil, false_iff]
            rintro ⟨props, rfl, h, -⟩
            exact h ((C105_syntax _).1 hx)
          · rw [if_neg hx]
            have hx' := fun h => hx ((C105_syntax _).2 h)
            obtain ⟨v, hv⟩ := hs.valid _ hm ((dlookup (Key.str "Properties") r).getD (.dict []))
            rw [hv]
            cases v with
            | none =>
              refine ⟨[], rfl, fun pm => ?_⟩
              simp only [List.not_mem_nil, false_iff]
              rintro ⟨props, rfl, -, h, -⟩
              rw [hv] at h
              cases h
            | some m =>
              refine ⟨_, rfl, fun pm => ?_⟩
              rw [List.mem_singleton]
              constructor
              · rintro rfl
                exact ⟨_, rfl, hx', hv, rfl⟩
              · rintro ⟨props, rfl, -, h, e⟩
                rw [hv] at h
                cases h
                exact Prod.ext e rfl)
      refine ⟨l, by simp only [schemaStep, hd, h1], fun pm => ?_⟩
      rw [h2]
      constructor
      · rintro ⟨⟨name, r⟩, hr, props, e, g1, g2, g3⟩
        exact ⟨kvs, ty, name, props, rfl, hty, (resourceProps_iff hw).1 ⟨r, hr, e⟩, g1, g2, g3⟩
      · rintro ⟨kvs', ty', name, props, e, h, g0, g1, g2, g3⟩
        cases e
        have := dlookup_of_mem hnd h
        rw [hd] at this
        cases this
        obtain ⟨r, hr, e⟩ := (resourceProps_iff hw).2 g0
        exact ⟨(name, r), hr, props, e, g1, g2, g3⟩)
  refine ⟨l, h1, fun p m => ?_⟩
  rw [h2]

/-! ### one template after the other -/

theorem runnerFilter_done (dirs : Directives) (mand : List Val) (D : List Match → Prop) (hD : ∀ acc m, D acc → D (acc ++ [m])) :
    ∀ (ms acc : List Match) {out : List Match}, D acc → runnerFilter dirs mand ms acc = .ok out → D out
  | [], acc, out, h, e => by cases e; exact h
  | m :: ms, acc, out, h, e => by
    rw [runnerFilter] at e
    split at e
    · exact runnerFilter_done dirs mand D hD ms acc h e
    · split at e
      · cases e
      · exact runnerFilter_done dirs mand D hD ms _ (hD _ _ h) e
      · exact runnerFilter_done dirs mand D hD ms acc h e

/-- a finding that was looked at is not kept a second time -/
def Looked (dirs : Directives) (mand : List Val) (m : Match) (acc : List Match) : Prop := acc.any (fun u => m.eqv u) = true ∨ keepMatch dirs mand m = .ok false

theorem looked_mono {dirs : Directives} {mand : List Val} {m : Match} (acc : List Match) (x : Match) (h : Looked dirs mand m acc) : Looked dirs mand m (acc ++ [x]) := by
  rcases h with h | h
  · exact .inl (by rw [List.any_append, h]; rfl)
  · exact .inr h

theorem looked_of_mem {dirs : Directives} {mand : List Val} : ∀ {ms acc out : List Match}, runnerFilter dirs mand ms acc = .ok out → ∀ m ∈ ms, Looked dirs mand m out
  | [], _, _, _, m, hm => by cases hm
  | x :: ms, acc, out, e, m, hm => by
    have e' := e
    rw [runnerFilter] at e
    rcases List.mem_cons.1 hm with rfl | hm
    · split at e
      · rename_i h
        exact runnerFilter_done dirs mand (Looked dirs mand m) looked_mono ms acc (.inl h) e
      · split at e
        · cases e
        · refine runnerFilter_done dirs mand (Looked dirs mand m) looked_mono ms _ (.inl ?_) e
          rw [List.any_append]
          simp [Match.eqv]
        · rename_i h
          exact runnerFilter_done dirs mand (Looked dirs mand m) looked_mono ms acc (.inr h) e
    · split at e
      · exact looked_of_mem e m hm
      · split at e
        · cases e
        · exact looked_of_mem e m hm
        · exact looked_of_mem e m hm

theorem runnerFilter_append (dirs : Directives) (mand : List Val) : ∀ (a b acc : List Match), runnerFilter dirs mand (a ++ b) acc =
    match runnerFilter dirs mand a acc with
    | .error e => .error e
    | .ok out => runnerFilter dirs mand b out
  | [], b, acc => rfl
  | x :: a, b, acc => by
    rw [List.cons_append, runnerFilter, runnerFilter]
    split
    · exact runnerFilter_append dirs mand a b acc
    · split
      · rfl
      · exact runnerFilter_append dirs mand a b _
      · exact runnerFilter_append dirs mand a b acc

theorem runnerFilter_looked {dirs : Directives} {mand : List Val} : ∀ {ms acc : List Match}, (∀ m ∈ ms, Looked dirs mand m acc) → runnerFilter dirs mand ms acc = .ok acc
  | [], acc, _ => rfl
  | x :: ms, acc, h => by
    rw [runnerFilter]
    rcases h x List.mem_cons_self with hx | hx
    · rw [if_pos hx]
      exact runnerFilter_looked (fun m hm => h m (List.mem_cons_of_mem _ hm))
    · split
      · exact runnerFilter_looked (fun m hm => h m (List.mem_cons_of_mem _ hm))
      · rw [hx]
        exact runnerFilter_looked (fun m hm => h m (List.mem_cons_of_mem _ hm))

/-- C105: findings that were already there change nothing in the report. -/
theorem C105_repeated (dirs : Directives) (mand : List Val) (before a b after acc : List Match) (h : ∀ m ∈ b, m ∈ a) :
    runnerFilter dirs mand (before ++ a ++ b ++ after) acc = runnerFilter dirs mand (before ++ a ++ after) acc := by
  rw [runnerFilter_append, runnerFilter_append dirs mand (before ++ a) b, runnerFilter_append dirs mand (before ++ a) after]
  cases hx : runnerFilter dirs mand (before ++ a) acc with
  | error e => rfl
  | ok out =>
    simp only
    rw [runnerFilter_looked (fun m hm => looked_of_mem hx m (List.mem_append_right _ (h m hm)))]

theorem collectM_join {α β : Type} {f : α → PyM (List β)} : ∀ {as : List α} {bs : List α} {l l' : List β}, collectM f as = .ok l → collectM f bs = .ok l' →
    collectM f (as ++ bs) = .ok (l ++ l')
  | [], bs, l, l', h, h' => by cases h; exact h'
  | a :: as, bs, l, l', h, h' => by
    rw [collectM] at h
    rw [List.cons_append, collectM]
    cases ha : f a with
    | error e => rw [ha] at h; cases h
    | ok x =>
      rw [ha] at h
      cases hr : collectM f as with
      | error e => simp only [hr] at h; cases h
      | ok y =>
        simp only [hr, Except.ok.injEq] at h
        simp only [collectM_join hr h', ← h, List.append_assoc]

theorem collectM_fails {α β : Type} {f : α → PyM (List β)} : ∀ {as : List α} (bs : List α) {e : PyErr}, collectM f as = .error e → collectM f (as ++ bs) = .error e
  | [], bs, e, h => by cases h
  | a :: as, bs, e, h => by
    rw [collectM] at h
    rw [List.cons_append, collectM]
    cases ha : f a with
    | error e => rw [ha] at h; exact h
    | ok x =>
      rw [ha] at h
      cases hr : collectM f as with
      | error e' =>
        simp only [hr, Except.error.injEq] at h
        simp only [collectM_fails bs hr, h]
      | ok y => simp only [hr] at h; cases h

theorem collectM_copies {α β : Type} {f : α → PyM (List β)} {as : List α} {l : List β} (h : collectM f as = .ok l) :
    ∀ n, collectM f (List.replicate n as).flatten = .ok (List.replicate n l).flatten
  | 0 => rfl
  | n + 1 => by
    rw [List.replicate_succ, List.replicate_succ, List.flatten_cons, List.flatten_cons]
    exact collectM_join h (collectM_copies h n)

theorem registryRuns_get {F : SchemaFiles} {paths : List String} {shown : Val → String} {validate : Val → Val → PyM (Option String)} {new : List Val}
    (hn : newSchemas F paths = .ok new) : ∀ {ts schemas : List Val}, ∃ rs, registryRuns F paths shown validate schemas ts = .ok rs ∧ rs.length = ts.length ∧
      ∀ (i : Nat) t, ts[i]? = some t → rs[i]? = some (registryRule shown validate (schemas ++ (List.replicate (i + 1) new).flatten) t)
  | [], schemas => ⟨[], rfl, rfl, fun i t h => by simp at h⟩
  | t :: ts, schemas => by
    obtain ⟨rs, h1, h2, h3⟩ := registryRuns_get hn (shown := shown) (validate := validate) (ts := ts) (schemas := schemas ++ new)
    refine ⟨registryRule shown validate (schemas ++ new) t :: rs, by simp only [registryRuns, hn, h1], by simp [h2], fun i u hu => ?_⟩
    cases i with
    | zero =>
      simp only [List.getElem?_cons_zero, Option.some.injEq] at hu
      subst hu
      simp
    | succ i =>
      rw [List.getElem?_cons_succ] at hu ⊢
      rw [h3 i u hu, List.append_assoc, List.replicate_succ (n := i + 1), List.flatten_cons]

/-- C105: for each template the findings of the rule are those it gets alone, some of them several times. -/
theorem C105_runs {F : SchemaFiles} {paths : List String} {shown : Val → String} {validate : Val → Val → PyM (Option String)} {new : List Val}
    (hn : newSchemas F paths = .ok new) (ts : List Val) :
    ∃ rs, registryRuns F paths shown validate [] ts = .ok rs ∧ rs.length = ts.length ∧ ∀ (i : Nat) t, ts[i]? = some t →
      (∀ e, registryRule shown validate new t = .error e → rs[i]? = some (Except.error e)) ∧
      ∀ l, registryRule shown validate new t = .ok l → ∃ more, rs[i]? = some (Except.ok (l ++ more)) ∧ ∀ m ∈ more, m ∈ l := by
  obtain ⟨rs, h1, h2, h3⟩ := registryRuns_get hn (shown := shown) (validate := validate) (ts := ts) (schemas := [])
  refine ⟨rs, h1, h2, fun i t ht => ⟨fun e he => ?_, fun l hl => ⟨(List.replicate i l).flatten, ?_, fun m hm => ?_⟩⟩⟩
  · rw [h3 i t ht, List.nil_append, List.replicate_succ, List.flatten_cons]
    exact congrArg some (collectM_fails _ he)
  · rw [h3 i t ht, List.nil_append]
    exact congrArg some (by
      have := collectM_copies hl (i + 1)
      rw [List.replicate_succ (a := l), List.flatten_cons] at this
      exact this)
  · obtain ⟨x, hx, hm⟩ := List.mem_flatten.1 hm
    rw [List.eq_of_mem_replicate hx] at hm
    exact hm

/-- C105: the report of a template does not depend on the templates before it. `place` makes a finding of what the rule returns, and `before` and `after` are the findings of
the other rules. -/
theorem C105_report {F : SchemaFiles} {paths : List String} {shown : Val → String} {validate : Val → Val → PyM (Option String)} {new : List Val}
    (hn : newSchemas F paths = .ok new) (ts : List Val) (i : Nat) (t : Val) (ht : ts[i]? = some t) (l : List (Path × String))
    (hl : registryRule shown validate new t = .ok l) (place : Path × String → Match) (dirs : Directives) (mand : List Val) (before after : List Match) :
    ∃ rs l', registryRuns F paths shown validate [] ts = .ok rs ∧ rs[i]? = some (Except.ok l') ∧
      runnerFilter dirs mand (before ++ l'.map place ++ after) [] = runnerFilter dirs mand (before ++ l.map place ++ after) [] := by
  obtain ⟨rs, h1, -, h2⟩ := C105_runs hn (shown := shown) (validate := validate) ts
  obtain ⟨more, h3, h4⟩ := (h2 i t ht).2 l hl
  refine ⟨rs, l ++ more, h1, h3, ?_⟩
  rw [List.map_append, ← List.append_assoc]
  refine C105_repeated dirs mand before (l.map place) (more.map place) after [] (fun m hm => ?_)
  obtain ⟨x, hx, rfl⟩ := List.mem_map.1 hm
  exact List.mem_map.2 ⟨x, h4 x hx, rfl⟩

/-! ### what goes wrong -/

/-- C105: the schemas of the command line are the files of the directories. -/
theorem C105_loaded {F : SchemaFiles} {paths : List String} (h : ∀ p ∈ paths, p ≠ "" → F.isDir (F.expand p) = true →
    ∃ fs, F.list p = .ok fs ∧ ∀ f ∈ fs, ∃ v, F.load p f = .ok v) :
    ∃ l, newSchemas F paths = .ok l ∧ ∀ v, v ∈ l ↔ ∃ p ∈ paths, p ≠ "" ∧ F.isDir (F.expand p) = true ∧ ∃ fs, F.list p = .ok fs ∧ ∃ f ∈ fs, F.load p f = .ok v := by
  unfold newSchemas
  refine collectM_spec (fun p hm => ?_)
  by_cases hp : p ≠ "" ∧ F.isDir (F.expand p) = true
  · rw [if_pos hp]
    obtain ⟨fs, h1, h2⟩ := h p hm hp.1 hp.2
    rw [h1]
    obtain ⟨l, h3, h4⟩ := collectM_spec (as := fs) (f := fun f => match F.load p f with | .error e => .error e | .ok v => .ok [v]) (P := fun f v => F.load p f = .ok v) (by
      intro f hf
      obtain ⟨v, hv⟩ := h2 f hf
      refine ⟨[v], by rw [hv], fun w => ?_⟩
      rw [hv, List.mem_singleton, Except.ok.injEq]
      exact eq_comm)
    refine ⟨l, h3, fun v => (h4 v).trans ?_⟩
    constructor
    · exact fun h5 => ⟨hp.1, hp.2, fs, rfl, h5⟩
    · rintro ⟨-, -, fs', e, h5⟩
      cases e
      exact h5
  · rw [if_neg hp]
    exact ⟨[], rfl, fun v => ⟨fun h5 => (by cases h5), fun ⟨h6, h7, _⟩ => absurd ⟨h6, h7⟩ hp⟩⟩

/-- C105: a directory that is given by its place in the home of the user, like `~/schemas`, is found and then not read, and the program ends. -/
theorem C105_home_raises {F : SchemaFiles} {p : String} (hp : p ≠ "") (hd : F.isDir (F.expand p) = true) {e : PyErr} (hl : F.list p = .error e) (paths : List String)
    (shown : Val → String) (validate : Val → Val → PyM (Option String)) (t : Val) (ts : List Val) :
    registryRuns F (p :: paths) shown validate [] (t :: ts) = .error e := by
  have : newSchemas F (p :: paths) = .error e := by
    unfold newSchemas
    rw [collectM, if_pos ⟨hp, hd⟩, hl]
  simp only [registryRuns, this]

/-- C105: a path that is no directory is passed over in silence. -/
theorem C105_no_directory {F : SchemaFiles} {p : String} (hd : F.isDir (F.expand p) = false) (paths : List String) : newSchemas F (p :: paths) = newSchemas F paths := by
  unfold newSchemas
  rw [collectM, if_neg (by simp [hd])]
  cases collectM (fun p =>
    if p ≠ "" ∧ F.isDir (F.expand p) = true then
      match F.list p with
      | .error e => .error e
      | .ok fs => collectM (fun f =>
        match F.load p f with
        | .error e => .error e
        | .ok v => .ok [v]) fs
    else .ok []) paths <;> rfl

/-- the text of an object shows the letters and digits of its keys as they are (`repr` escapes only other characters) -/
def ShowsKeys (shown : Val → String) : Prop :=
  ∀ kvs k v w, (Key.str k, v) ∈ kvs → (∀ c ∈ w.toList, c.isAlphanum = true) → HasWord w k → HasWord w (shown (.dict kvs))

/-- C105, in full: the invalid properties of a resource that uses no functions or references are reported. -/
def C105_statement : Prop :=
  ∀ (shown : Val → String) (validate : Val → Val → PyM (Option String)) (schemas : List Val) (t : Val), ShowsKeys shown → t.WF → GoodSchemas validate schemas →
    ∀ s ∈ schemas, ∀ kvs ty name props m, s = .dict kvs → (Key.str "typeName", Val.str ty) ∈ kvs → ResourceProps t ty name props → NoCallsIn props →
      validate props s = .ok (some m) → ∃ l, registryRule shown validate schemas t = .ok l ∧ ([.str "Resources", name, .str "Properties"], m) ∈ l

/-- C105: a property whose name has `Ref` or `Condition` in it, like `Reference` or `ConditionKey`, takes the resource out of the check. -/
theorem C105_missed {shown : Val → String} (hs : ShowsKeys shown) (validate : Val → Val → PyM (Option String)) (schema : Val) (name : Key) {r props : List (Key × Val)}
    (hp : dlookup (Key.str "Properties") r = some (.dict props)) {k : String} {v : Val} (hk : (Key.str k, v) ∈ props) (hw : HasWord "Ref" k ∨ HasWord "Condition" k) :
    schemaResource shown validate schema (name, r) = .ok [] := by
  unfold schemaResource
  simp only [hp, Option.getD_some]
  rw [if_pos]
  rw [C105_syntax]
  rcases hw with h | h
  · exact .inr ⟨"Ref", by simp, hs props k v _ hk (by decide) h⟩
  · exact .inr ⟨"Condition", by simp, hs props k v _ hk (by decide) h⟩

def exOwnSchema : Val := .dict [(.str "typeName", .str "My::Own::Thing")]

def exOwnTemplate : Val :=
  .dict [(.str "Resources", .dict [(.str "R", .dict [(.str "Type", .str "My::Own::Thing"), (.str "Properties", .dict [(.str "Reference", .int 1)])])])]

/-- every object is invalid -/
def exInvalid : Val → Val → PyM (Option String) := fun _ _ => .ok (some "bad")

/-- the keys of an object, one after the other -/
def exShown : Val → String
  | .dict kvs => String.ofList (kvs.flatMap (fun kv => match kv.1 with | .str k => k.toList | .int _ => []))
  | _ => ""

theorem exShown_keys : ShowsKeys exShown := by
  intro kvs k v w h _ hw
  rw [hasWord_iff] at hw ⊢
  refine hw.trans ?_
  simp only [exShown, String.toList_ofList]
  obtain ⟨a, b, rfl⟩ := List.append_of_mem h
  rw [List.flatMap_append, List.flatMap_cons]
  exact ⟨_, _, List.append_assoc _ _ _⟩

theorem exOwn_wf : exOwnTemplate.WF := by simp [exOwnTemplate, Val.WF, Val.WFDict]

theorem exOwn_good : GoodSchemas exInvalid [exOwnSchema] :=
  ⟨fun s h => by cases List.mem_singleton.1 h; exact ⟨_, "My::Own::Thing", rfl, by simp, List.mem_cons_self⟩, fun s _ v => ⟨_, rfl⟩⟩

theorem exOwn_props : ResourceProps exOwnTemplate "My::Own::Thing" (.str "R") (.dict [(.str "Reference", .int 1)]) :=
  ⟨_, _, .key List.mem_cons_self .here, List.mem_cons_self, List.mem_cons_self, .inl (List.mem_cons_of_mem _ List.mem_cons_self)⟩

theorem C105_violated : ¬ C105_statement := by
  intro h
  obtain ⟨l, h1, h2⟩ := h exShown exInvalid [exOwnSchema] exOwnTemplate exShown_keys exOwn_wf exOwn_good exOwnSchema List.mem_cons_self _ "My::Own::Thing" (.str "R") _ "bad" rfl
    List.mem_cons_self exOwn_props (by
      constructor
      · intro p kvs k w hat hm
        cases hat with
        | here =>
          simp only [List.mem_singleton, Prod.mk.injEq, Key.str.injEq] at hm
          obtain ⟨rfl, -⟩ := hm
          refine ⟨by decide, by decide, ?_⟩
          rw [hasWord_iff]
          decide +kernel
        | key hm' hat =>
          simp only [List.mem_singleton, Prod.mk.injEq] at hm'
          obtain ⟨-, rfl⟩ := hm'
          cases hat
      · intro p s hat
        cases hat with
        | key hm' hat =>
          simp only [List.mem_singleton, Prod.mk.injEq] at hm'
          obtain ⟨-, rfl⟩ := hm'
          cases hat) rfl
  rw [show registryRule exShown exInvalid [exOwnSchema] exOwnTemplate = .ok [] by decide +kernel] at h1
  cases h1
  cases h2

/-- C105: a schema without the name of a type ends the rule with an error, whatever the template. -/
theorem C105_unnamed_raises (shown : Val → String) (validate : Val → Val → PyM (Option String)) (t : Val) {kvs : List (Key × Val)} (rest : List Val)
    (h : ∀ v, (Key.str "typeName", v) ∉ kvs) : registryRule shown validate (.dict kvs :: rest) t = .error (.keyError "typeName") := by
  have : dlookup (Key.str "typeName") kvs = none := by
    cases h' : dlookup (Key.str "typeName") kvs with
    | none => rfl
    | some v => exact absurd (dlookup_mem h') (h v)
  simp only [registryRule, collectM, schemaStep, this]

/-! ### examples -/

def exOwnPlain : Val := .dict [(.str "Resources", .dict [(.str "R", .dict [(.str "Type", .str "My::Own::Thing"), (.str "Properties", .dict [(.str "Size", .int 1)])])])]

def exOwnFiles : SchemaFiles := { expand := id, isDir := fun _ => true, list := fun _ => .ok ["a.json"], load := fun _ _ => .ok exOwnSchema }

/-- the finding of the second template is there twice -/
example : registryRuns exOwnFiles ["schemas"] exShown exInvalid [] [exOwnTemplate, exOwnPlain] =
    .ok [.ok [], .ok [([.str "Resources", .str "R", .str "Properties"], "bad"), ([.str "Resources", .str "R", .str "Properties"], "bad")]] := by decide +kernel

example : newSchemas exOwnFiles ["schemas"] = .ok [exOwnSchema] := rfl

example : ∃ l, registryRule exShown exInvalid [exOwnSchema] exOwnTemplate = .ok l ∧ ∀ p m, (p, m) ∈ l ↔ ∃ s ∈ [exOwnSchema], ∃ kvs ty name props, s = .dict kvs ∧
    (Key.str "typeName", Val.str ty) ∈ kvs ∧ ResourceProps exOwnTemplate ty name props ∧ ¬ SyntaxIn (exShown props) ∧ exInvalid props s = .ok (some m) ∧
    p = [.str "Resources", name, .str "Properties"] := C105_exact_partial exOwn_wf exOwn_good

example : ∃ l, newSchemas exOwnFiles ["schemas"] = .ok l ∧ ∀ v, v ∈ l ↔ ∃ p ∈ ["schemas"], p ≠ "" ∧ exOwnFiles.isDir (exOwnFiles.expand p) = true ∧
    ∃ fs, exOwnFiles.list p = .ok fs ∧ ∃ f ∈ fs, exOwnFiles.load p f = .ok v := C105_loaded (fun _ _ _ _ => ⟨_, rfl, fun _ _ => ⟨_, rfl⟩⟩)

end CfnLint
