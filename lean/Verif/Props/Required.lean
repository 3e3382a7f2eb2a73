import Verif.Lemmas.PropSets
import Verif.Props.Traverse
/-
C60: E3003 and the properties an object must have.
-/
namespace CfnLint
open Spec

/-! ### The names required -/

/-- the specification of a type: `Properties` is an object of objects with text keys -/
structure SpecShape (ps : List (Key × Val)) : Prop where
  keys : ∀ kv ∈ ps, ∃ s, kv.1 = .str s
  objects : ∀ kv ∈ ps, ∃ d, kv.2 = .dict d

theorem C60_required_names {spec ps : List (Key × Val)} (hp : dlookup (Key.str "Properties") spec = some (.dict ps))
    (hs : SpecShape ps) : ∃ names, requiredAttrs (.dict spec) = .ok names ∧ ∀ n, n ∈ names ↔
      ∃ d r, (Key.str n, Val.dict d) ∈ ps ∧ dlookup (Key.str "Required") d = some r ∧ r.truthy = true := by
  have hget : (Val.dict spec).getD "Properties" (.dict []) = .ok (.dict ps) := by simp [Val.getD, hp]
  have hitems : itemsOf (.dict ps) = .ok ps := rfl
  obtain ⟨names, hn⟩ := collectM_ok (as := ps) (f := fun kv =>
        match kv.2.getD "Required" (.bool false) with
        | .error e => .error e
        | .ok r => .ok (if r.truthy then (match kv.1 with | .str s => [s] | .int _ => []) else [])) (by
      rintro ⟨k, v⟩ hm
      obtain ⟨d, hd⟩ := hs.objects _ hm
      simp only at hd
      subst hd
      simp [Val.getD])
  refine ⟨names, by unfold requiredAttrs; rw [hget]; simp only [hitems]; exact hn, ?_⟩
  intro n
  rw [mem_collectM hn]
  constructor
  · rintro ⟨⟨k, v⟩, hm, l, hl, hnl⟩
    obtain ⟨d, hd⟩ := hs.objects _ hm
    simp only at hd
    subst hd
    simp only [Val.getD] at hl
    injection hl with hl
    subst hl
    split at hnl
    · rename_i ht
      obtain ⟨s, hk⟩ := hs.keys _ hm
      simp only at hk
      subst hk
      simp only [List.mem_singleton] at hnl
      subst hnl
      cases hr : dlookup (Key.str "Required") d with
      | none => rw [hr] at ht; simp [Val.truthy] at ht
      | some r => rw [hr] at ht; exact ⟨d, r, hm, hr, by simpa using ht⟩
    · cases hnl
  · rintro ⟨d, r, hm, hr, ht⟩
    refine ⟨_, hm, [n], ?_, List.mem_singleton.2 rfl⟩
    simp [Val.getD, hr, ht]

/-! ### What is reported -/

theorem withoutNoValue_has {l : List (Key × Val)} {n : String} :
    pyIn n (withoutNoValue (.dict l)) = .ok false ↔ ∀ v, (Key.str n, v) ∈ l → v = noValue := by
  unfold withoutNoValue pyIn
  constructor
  · intro h v hm
    injection h with h
    by_contra hne
    have : dhas (Key.str n) (l.filter (fun kv => decide (kv.2 ≠ noValue))) = true := by
      rw [dhas_iff]
      exact List.mem_map.2 ⟨(.str n, v), List.mem_filter.2 ⟨hm, by simp [hne]⟩, rfl⟩
    rw [h] at this
    cases this
  · intro h
    change Except.ok (dhas (Key.str n) (l.filter (fun kv => decide (kv.2 ≠ noValue)))) = Except.ok false
    congr 1
    rw [← Bool.not_eq_true, dhas_iff, List.mem_map]
    rintro ⟨⟨k, v⟩, hm, hk⟩
    simp only at hk
    subst hk
    obtain ⟨h1, h2⟩ := List.mem_filter.1 hm
    simp only [decide_eq_true_eq] at h2
    exact h2 (h v h1)

theorem pyIn_dict (n : String) (l : List (Key × Val)) : ∃ b, pyIn n (.dict l) = .ok b := ⟨_, rfl⟩

/-- **C60** What E3003 reports for an object whose branches are objects: the places at which choosing branches
leads to an object without the property, or with a reference to `AWS::NoValue` for it. -/
theorem C60_reports (required : List String) (kvs : List (Key × Val)) (path : Path) (hw : (Val.dict kvs).WF)
    (ho : ∀ q u, Leaf (.dict kvs) q u → ∃ l, u = .dict l) :
    ∃ res, requiredCheck required (.dict kvs) path = .ok res ∧ ∀ p n, (p, n) ∈ res ↔
      n ∈ required ∧ ∃ q l, Leaf (.dict kvs) q (.dict l) ∧ p = path ++ q ∧ ∀ v, (Key.str n, v) ∈ l → v = noValue := by
  have hbody : ∀ r ∈ itemsSafe [] kvs path, ∃ q l, Leaf (.dict kvs) q (.dict l) ∧ r = (withoutNoValue (.dict l), path ++ q) := by
    rintro ⟨w, p⟩ hm
    obtain ⟨q, u, hl, rfl, rfl, _⟩ := (mem_itemsSafe [] kvs path p w hw).1 hm
    obtain ⟨l, rfl⟩ := ho q u hl
    exact ⟨q, l, hl, rfl⟩
  have hmiss : ∀ (q : Path) (l : List (Key × Val)), ∃ res, missingIn required (withoutNoValue (.dict l), path ++ q) = .ok res ∧
      ∀ p n, (p, n) ∈ res ↔ n ∈ required ∧ p = path ++ q ∧ ∀ v, (Key.str n, v) ∈ l → v = noValue := by
    intro q l
    obtain ⟨res, hres⟩ := collectM_ok (as := required) (f := fun name =>
      match pyIn name (withoutNoValue (.dict l)) with
      | .error e => .error e
      | .ok true => .ok []
      | .ok false => .ok [(path ++ q, name)]) (by
        intro name _
        obtain ⟨b, hb⟩ := pyIn_dict name (l.filter (fun kv => decide (kv.2 ≠ noValue)))
        change pyIn name (withoutNoValue (.dict l)) = .ok b at hb
        cases b <;> simp [hb])
    refine ⟨res, hres, ?_⟩
    intro p n
    rw [mem_collectM hres]
    constructor
    · rintro ⟨a, ha, l', hl', hm⟩
      obtain ⟨b, hb⟩ := pyIn_dict a (l.filter (fun kv => decide (kv.2 ≠ noValue)))
      change pyIn a (withoutNoValue (.dict l)) = .ok b at hb
      cases b with
      | true => simp only [hb] at hl'; injection hl' with hl'; subst hl'; cases hm
      | false =>
        simp only [hb] at hl'
        injection hl' with hl'
        subst hl'
        simp only [List.mem_singleton, Prod.mk.injEq] at hm
        obtain ⟨rfl, rfl⟩ := hm
        exact ⟨ha, rfl, withoutNoValue_has.1 hb⟩
    · rintro ⟨ha, rfl, hv⟩
      have hb := withoutNoValue_has.2 hv
      exact ⟨n, ha, [(path ++ q, n)], by simp only [hb], List.mem_singleton.2 rfl⟩
  obtain ⟨res, hres⟩ := collectM_ok (as := itemsSafe [] kvs path) (f := missingIn required) (by
    intro r hr
    obtain ⟨q, l, _, rfl⟩ := hbody r hr
    obtain ⟨res, h, _⟩ := hmiss q l
    exact ⟨res, h⟩)
  refine ⟨res, hres, ?_⟩
  intro p n
  rw [mem_collectM hres]
  constructor
  · rintro ⟨r, hr, l', hl', hm⟩
    obtain ⟨q, l, hl, rfl⟩ := hbody r hr
    obtain ⟨res', h1, h2⟩ := hmiss q l
    rw [h1] at hl'
    injection hl' with hl'
    subst hl'
    obtain ⟨h3, h4, h5⟩ := (h2 p n).1 hm
    exact ⟨h3, q, l, hl, h4, h5⟩
  · rintro ⟨hn, q, l, hl, rfl, hv⟩
    obtain ⟨res', h1, h2⟩ := hmiss q l
    exact ⟨_, (mem_itemsSafe [] kvs path _ _ hw).2 ⟨q, _, hl, rfl, rfl, rfl⟩, res', h1, (h2 _ _).2 ⟨hn, rfl, hv⟩⟩

/-! ### What a deployment sees -/

/-- **C60** in full: a required property is reported missing exactly when some truth values of the conditions
make it missing. -/
def C60_statement : Prop := ∀ (required : List String) (kvs : List (Key × Val)) (path : Path) (res : List (Path × String)),
  (Val.dict kvs).WF → Proper (.dict kvs) → requiredCheck required (.dict kvs) path = .ok res → ∀ q, ∀ n ∈ required,
    (path ++ q, n) ∈ res ↔ ∃ σ, Lacks σ (.dict kvs) q n

theorem leaf_of_chosen {σ : String → Bool} {v w : Val} {q : Path} (h : Chosen σ v q w) (hw : w ≠ noValue) : Leaf v q w := by
  induction h with
  | here hn => exact .here hn hw
  | left _ _ ih => exact .left (ih hw)
  | right _ _ ih => exact .right (ih hw)

theorem leaf_chosen {σ : String → Bool} {v w w' : Val} {q : Path} (h : Leaf v q w) (h' : Chosen σ v q w') :
    w = w' ∧ w ≠ noValue := by
  induction h generalizing w' with
  | @here v hn hnv =>
    generalize hq : ([] : Path) = q at h'
    cases h' with
    | here => exact ⟨rfl, hnv⟩
    | left => cases hq
    | right => cases hq
  | @left c a b p w _ ih =>
    generalize hv : fnIf c a b = v at h'
    generalize hq : (Key.str "Fn::If" :: Key.int 1 :: p) = q at h'
    cases h' with
    | here => cases hq
    | left _ h' => simp [fnIf] at hv hq; obtain ⟨rfl, rfl, rfl⟩ := hv; subst hq; exact ih h'
    | right _ h' => simp at hq
  | @right c a b p w _ ih =>
    generalize hv : fnIf c a b = v at h'
    generalize hq : (Key.str "Fn::If" :: Key.int 2 :: p) = q at h'
    cases h' with
    | here => cases hq
    | left _ h' => simp at hq
    | right _ h' => simp [fnIf] at hv hq; obtain ⟨rfl, rfl, rfl⟩ := hv; subst hq; exact ih h'

theorem collectM_two {α β : Type} {f : α → PyM (List β)} {as bs : List α} {l m : List β} (h : collectM f as = .ok l)
    (h' : collectM f bs = .ok m) : ∃ r, collectM f (as ++ bs) = .ok r ∧ ∀ x, x ∈ r ↔ x ∈ l ∨ x ∈ m := by
  obtain ⟨r, hr⟩ := collectM_ok (f := f) (as := as ++ bs) (by
    intro a ha
    rcases List.mem_append.1 ha with ha | ha
    · exact collectM_each h a ha
    · exact collectM_each h' a ha)
  refine ⟨r, hr, fun x => ?_⟩
  rw [mem_collectM hr, mem_collectM h, mem_collectM h']
  constructor
  · rintro ⟨a, ha, hx⟩
    rcases List.mem_append.1 ha with ha | ha
    · exact .inl ⟨a, ha, hx⟩
    · exact .inr ⟨a, ha, hx⟩
  · rintro (⟨a, ha, hx⟩ | ⟨a, ha, hx⟩)
    · exact ⟨a, List.mem_append_left _ ha, hx⟩
    · exact ⟨a, List.mem_append_right _ ha, hx⟩

theorem required_list (required : List String) (path : Path) : ∀ (xs : List Val) (start : Nat),
    (∀ x ∈ xs, ∃ kvs, x = .dict kvs ∧ x.WF ∧ ∀ q u, Leaf x q u → ∃ l, u = .dict l) →
    ∃ res, collectM (missingIn required) (listItemsSafe [] xs start path) = .ok res ∧ ∀ p n, (p, n) ∈ res ↔
      n ∈ required ∧ ∃ (i : Nat) (x : Val) (q : Path) (l : List (Key × Val)), xs[i]? = some x ∧ Leaf x q (.dict l) ∧
        p = path ++ .int (start + i : Nat) :: q ∧ ∀ v, (Key.str n, v) ∈ l → v = noValue := by
  intro xs
  induction xs with
  | nil => intro start _; exact ⟨[], rfl, by simp⟩
  | cons x xs ih =>
    intro start hx
    obtain ⟨kvs, rfl, hw, ho⟩ := hx x List.mem_cons_self
    obtain ⟨r1, h1, s1⟩ := C60_reports required kvs (path ++ [.int start]) hw ho
    obtain ⟨r2, h2, s2⟩ := ih (start + 1) (fun y hy => hx y (List.mem_cons_of_mem _ hy))
    have h1' : collectM (missingIn required) ((itemsSafe [] kvs (path ++ [.int start])).filter (fun r => okType [] r.1)) = .ok r1 := by
      rw [List.filter_eq_self.2 (by intro a _; simp [okType])]
      exact h1
    obtain ⟨r, hr, hm⟩ := collectM_two h1' h2
    refine ⟨r, hr, fun p n => ?_⟩
    rw [hm, s1, s2]
    constructor
    · rintro (⟨hn, q, l, hl, rfl, hv⟩ | ⟨hn, i, y, q, l, hy, hl, rfl, hv⟩)
      · exact ⟨hn, 0, _, q, l, rfl, hl, by simp, hv⟩
      · exact ⟨hn, i + 1, y, q, l, by simpa using hy, hl, by rw [Nat.add_assoc, Nat.add_comm 1 i], hv⟩
    · rintro ⟨hn, i, y, q, l, hy, hl, rfl, hv⟩
      cases i with
      | zero =>
        simp at hy
        subst hy
        exact .inl ⟨hn, q, l, hl, by simp, hv⟩
      | succ i => exact .inr ⟨hn, i, y, q, l, by simpa using hy, hl, by rw [Nat.add_assoc, Nat.add_comm 1 i], hv⟩

/-- **C60** For a list of objects the check ends normally and reports, in every object of the list and every branch of it,
exactly the required properties without value, with the index in the path. -/
theorem C60_lists (required : List String) (xs : List Val) (path : Path)
    (hx : ∀ x ∈ xs, ∃ kvs, x = .dict kvs ∧ x.WF ∧ ∀ q u, Leaf x q u → ∃ l, u = .dict l) :
    ∃ res, requiredCheck required (.list xs) path = .ok res ∧ ∀ p n, (p, n) ∈ res ↔
      n ∈ required ∧ ∃ (i : Nat) (x : Val) (q : Path) (l : List (Key × Val)), xs[i]? = some x ∧ Leaf x q (.dict l) ∧
        p = path ++ .int i :: q ∧ ∀ v, (Key.str n, v) ∈ l → v = noValue := by
  obtain ⟨res, h1, h2⟩ := required_list required path xs 0 hx
  refine ⟨res, h1, fun p n => ?_⟩
  rw [h2]
  simp only [Nat.zero_add]

/-- two objects, the second lacks the property -/
example : requiredCheck ["A"] (.list [.dict [(.str "A", .int 1)], .dict [(.str "B", .int 1)]]) [.str "P"] =
    .ok [([.str "P", .int 1], "A")] := by decide

/-- **C60**, what holds of completeness: a property missing under some truth values is reported unless the object
chosen has an `Fn::If` for it. -/
theorem C60_complete_partial {required : List String} {kvs : List (Key × Val)} {path : Path} {res : List (Path × String)}
    (hw : (Val.dict kvs).WF) (ho : ∀ q u, Leaf (.dict kvs) q u → ∃ l, u = .dict l)
    (hr : requiredCheck required (.dict kvs) path = .ok res) {n : String} (hn : n ∈ required) {σ : String → Bool} {q : Path}
    (hl : Lacks σ (.dict kvs) q n) (hc : ∀ l v, Leaf (.dict kvs) q (.dict l) → (Key.str n, v) ∈ l → ¬ IsIf v) :
    (path ++ q, n) ∈ res := by
  obtain ⟨res', h1, h2⟩ := C60_reports required kvs path hw ho
  rw [hr] at h1
  injection h1 with h1
  subst h1
  obtain ⟨l, hch, hnv, hno⟩ := hl
  have hleaf := leaf_of_chosen hch hnv
  refine (h2 _ _).2 ⟨hn, q, l, hleaf, rfl, ?_⟩
  intro v hm
  by_contra hne
  exact hno ⟨v, hm, fun hrem => hne ((removed_not_if (hc l v hleaf hm)).1 hrem)⟩

/-- **C60**, what holds of soundness: where a property is reported missing, it is missing under all truth values that
lead to that place. -/
theorem C60_sound_partial {required : List String} {kvs : List (Key × Val)} {path : Path} {res : List (Path × String)}
    (hw : (Val.dict kvs).WF) (ho : ∀ q u, Leaf (.dict kvs) q u → ∃ l, u = .dict l)
    (hr : requiredCheck required (.dict kvs) path = .ok res) {n : String} {p : Path} (hm : (p, n) ∈ res) :
    n ∈ required ∧ ∃ q l, p = path ++ q ∧ Leaf (.dict kvs) q (.dict l) ∧
      ∀ σ w, Chosen σ (.dict kvs) q w → Lacks σ (.dict kvs) q n := by
  obtain ⟨res', h1, h2⟩ := C60_reports required kvs path hw ho
  rw [hr] at h1
  injection h1 with h1
  subst h1
  obtain ⟨hn, q, l, hl, hp, hv⟩ := (h2 _ _).1 hm
  refine ⟨hn, q, l, hp, hl, ?_⟩
  intro σ w hch
  obtain ⟨he, hnw⟩ := leaf_chosen hl hch
  subst he
  refine ⟨l, hch, hnw, ?_⟩
  rintro ⟨v, hmv, hnr⟩
  rw [hv v hmv] at hnr
  exact hnr .here

theorem chosen_congr {σ τ : String → Bool} {v w : Val} {q : Path} (h : Chosen σ v q w) (seen : List String)
    (hr : NoRepeat seen v) (he : ∀ c, c ∉ seen → τ c = σ c) : Chosen τ v q w := by
  induction h generalizing seen with
  | here hn => exact .here hn
  | @left c a b q w hc _ ih =>
    generalize hv : fnIf (.str c) a b = v at hr
    cases hr with
    | leaf hn => subst hv; exact absurd ⟨_, rfl⟩ hn
    | branch h1 h2 h3 =>
      simp [fnIf] at hv
      obtain ⟨rfl, rfl, rfl⟩ := hv
      exact .left (by rw [he _ h1]; exact hc) (ih _ h2 (fun d hd => he d (fun h => hd (List.mem_cons_of_mem _ h))))
  | @right c a b q w hc _ ih =>
    generalize hv : fnIf (.str c) a b = v at hr
    cases hr with
    | leaf hn => subst hv; exact absurd ⟨_, rfl⟩ hn
    | branch h1 h2 h3 =>
      simp [fnIf] at hv
      obtain ⟨rfl, rfl, rfl⟩ := hv
      exact .right (by rw [he _ h1]; exact hc) (ih _ h3 (fun d hd => he d (fun h => hd (List.mem_cons_of_mem _ h))))

/-- **C60** If no condition is asked again inside its own branches, every place is reached by some truth values, so that
every report is about a property some truth values make missing. -/
theorem C60_reached {v w : Val} {q : Path} (h : Leaf v q w) (seen : List String) (hr : NoRepeat seen v) :
    ∃ σ, Chosen σ v q w := by
  induction h generalizing seen with
  | here hn _ => exact ⟨fun _ => true, .here hn⟩
  | @left c a b p w _ ih =>
    generalize hv : fnIf c a b = v at hr
    cases hr with
    | leaf hn => subst hv; exact absurd ⟨_, rfl⟩ hn
    | @branch _ d a' b' h1 h2 h3 =>
      simp [fnIf] at hv
      obtain ⟨rfl, rfl, rfl⟩ := hv
      obtain ⟨σ, hσ⟩ := ih _ h2
      refine ⟨fun x => if x = d then true else σ x, .left (if_pos rfl) (chosen_congr hσ _ h2 ?_)⟩
      intro x hx
      exact if_neg (fun h => hx (by rw [h]; exact List.mem_cons_self))
  | @right c a b p w _ ih =>
    generalize hv : fnIf c a b = v at hr
    cases hr with
    | leaf hn => subst hv; exact absurd ⟨_, rfl⟩ hn
    | @branch _ d a' b' h1 h2 h3 =>
      simp [fnIf] at hv
      obtain ⟨rfl, rfl, rfl⟩ := hv
      obtain ⟨σ, hσ⟩ := ih _ h3
      refine ⟨fun x => if x = d then false else σ x, .right (if_pos rfl) (chosen_congr hσ _ h3 ?_)⟩
      intro x hx
      exact if_neg (fun h => hx (by rw [h]; exact List.mem_cons_self))

/-- **C60** Both directions for an object in which no condition is asked twice on the way and the property is not
given by an `Fn::If`. -/
theorem C60_exact_partial {required : List String} {kvs : List (Key × Val)} {path : Path} {res : List (Path × String)}
    (hw : (Val.dict kvs).WF) (ho : ∀ q u, Leaf (.dict kvs) q u → ∃ l, u = .dict l)
    (hr : requiredCheck required (.dict kvs) path = .ok res) {n : String} (hn : n ∈ required) (hrep : NoRepeat [] (.dict kvs))
    (hc : ∀ q l v, Leaf (.dict kvs) q (.dict l) → (Key.str n, v) ∈ l → ¬ IsIf v) (q : Path) :
    (path ++ q, n) ∈ res ↔ ∃ σ, Lacks σ (.dict kvs) q n := by
  constructor
  · intro hm
    obtain ⟨_, q', l, hp, hl, hs⟩ := C60_sound_partial hw ho hr hm
    obtain rfl := List.append_cancel_left hp
    obtain ⟨σ, hσ⟩ := C60_reached hl [] hrep
    exact ⟨σ, hs σ _ hσ⟩
  · rintro ⟨σ, hσ⟩
    exact C60_complete_partial hw ho hr hn hσ (hc q)

/-- C60 fails: a property that a condition removes is not reported. -/
theorem C60_conditional_violated : ¬ C60_statement := by
  intro h
  have := (h ["A"] [(.str "A", fnIf (.str "C") (.int 1) noValue), (.str "B", .int 1)] [] []
    (by simp [Val.WF, Val.WFDict, Val.WFList, fnIf, noValue]) (by rw [Proper.eq_4] <;> simp) (by decide) [] "A" (by simp)).2
    ⟨fun _ => false, _, .here (by rintro ⟨w, h⟩; simp at h), by simp [noValue], by
      rintro ⟨v, hm, hv⟩
      simp at hm
      subst hm
      exact hv (.right rfl .here)⟩
  cases this

/-- C60 fails: a property is reported missing in a branch that cannot be chosen. -/
theorem C60_unreachable_violated : ¬ C60_statement := by
  intro h
  have h0 : requiredCheck ["A"] (fnIf (.str "C") (fnIf (.str "C") (.dict [(.str "A", .int 1)]) (.dict [(.str "B", .int 1)]))
      (.dict [(.str "A", .int 1)])) [] =
      .ok [([.str "Fn::If", .int 1, .str "Fn::If", .int 2], "A")] := by decide
  obtain ⟨σ, l, hch, _, _⟩ := (h ["A"] _ [] _
    (by simp [Val.WF, Val.WFDict, Val.WFList, fnIf]) (by simp [Proper, ProperIf, fnIf]) h0
    [.str "Fn::If", .int 1, .str "Fn::If", .int 2] "A" (by simp)).1 (by simp)
  generalize hv : Val.dict _ = v at hch
  cases hch with
  | left h1 hch =>
    simp [fnIf] at hv
    obtain ⟨rfl, rfl, rfl⟩ := hv
    generalize hv : Val.dict _ = v at hch
    cases hch with
    | right h2 _ =>
      simp [fnIf] at hv
      obtain ⟨rfl, rfl, rfl⟩ := hv
      rw [h1] at h2
      cases h2

/-- C60 also fails for a branch that is a text: a property is missing only if its name is not part of the text. -/
theorem C60_text_violated : requiredCheck ["A"] (fnIf (.str "C") (.str "an A") (.dict [(.str "A", .int 1)])) [] = .ok [] := by
  decide

/-! ### Which objects are looked at -/

/-- **C60** with C44: an object of a property type inside the properties of a resource is looked at, and a required
property is reported missing there exactly when the object has no value for it other than a reference to
`AWS::NoValue`. -/
theorem C60_nested_partial {S : TypeSpecs} {rt : String} {ps : List (Key × PropDecl)} {props : List (Key × Val)} {path : Path}
    (hw : (Val.dict props).WF) (hps : dlookup rt S.resourceTypes = some ps) (hs : Sane S rt ps)
    (hf : Followed S rt ps (.dict props) path) {t : String} {p : Path} {kvs : List (Key × Val)} {d : TypeDecl}
    (hd : typeOf S rt t = some d) (h : ObjectOf S rt ps (.dict props) path t p (.dict kvs)) (hwk : (Val.dict kvs).WF)
    (required : List String) :
    ∃ x ∈ visitResource S rt props path, x.path = p ∧ x.typeName = registeredName rt t ∧
      ∃ res, requiredCheck required x.value x.path = .ok res ∧ ∀ p' n, (p', n) ∈ res ↔
        p' = p ∧ n ∈ required ∧ ∀ v, (Key.str n, v) ∈ kvs → v = noValue := by
  have hx := C44_complete_partial hw hps hs hf hd h
  obtain ⟨_, _, hnif, hnv⟩ := h
  have hleaf : ∀ q u, Leaf (.dict kvs) q u ↔ q = [] ∧ u = .dict kvs := by
    intro q u
    constructor
    · intro hl
      generalize hv : Val.dict kvs = v at hl
      cases hl with
      | here => exact ⟨rfl, rfl⟩
      | left => rw [hv] at hnif; exact absurd ⟨_, rfl⟩ hnif
      | right => rw [hv] at hnif; exact absurd ⟨_, rfl⟩ hnif
    · rintro ⟨rfl, rfl⟩; exact .here hnif hnv
  obtain ⟨res, h1, h2⟩ := C60_reports required kvs p hwk (fun q u hl => ⟨kvs, ((hleaf q u).1 hl).2⟩)
  refine ⟨_, hx, rfl, rfl, res, h1, ?_⟩
  intro p' n
  rw [h2]
  constructor
  · rintro ⟨hn, q, l, hl, rfl, hv⟩
    obtain ⟨rfl, he⟩ := (hleaf _ _).1 hl
    injection he with he
    subst he
    exact ⟨by simp, hn, hv⟩
  · rintro ⟨rfl, hn, hv⟩
    exact ⟨hn, [], kvs, (hleaf _ _).2 ⟨rfl, rfl⟩, by simp, hv⟩

/-- **C60** null properties of a resource are passed over; null inside is not -/
theorem C60_null (spec : Val) (path : Path) : requiredMatch true spec .none path = .ok [] ∧
    ∀ names, requiredAttrs spec = .ok names → ∃ e, requiredMatch false spec .none path = .error e := by
  refine ⟨by unfold requiredMatch; rw [if_pos ⟨rfl, rfl⟩], ?_⟩
  intro names hn
  unfold requiredMatch
  rw [if_neg (by simp), hn]
  exact ⟨_, rfl⟩

/-- **C60** elsewhere both entries do the same -/
theorem C60_match (top : Bool) {spec obj : Val} (path : Path) {names : List String} (ho : obj ≠ .none)
    (hn : requiredAttrs spec = .ok names) : requiredMatch top spec obj path = requiredCheck names obj path := by
  unfold requiredMatch
  rw [if_neg (fun h => ho h.2), hn]

/-! ### Custom resources -/

/-- a resource whose type begins with `Custom::` and is not in the specification, and its properties -/
def CustomProps (types : List String) (rs : List (Key × Val)) (name : Key) (props : Val) : Prop :=
  ∃ r ty, (name, Val.dict r) ∈ rs ∧ dlookup (Key.str "Type") r = some (.str ("Custom::" ++ ty)) ∧
    "Custom::" ++ ty ∉ types ∧ dlookup (Key.str "Properties") r = some props

theorem custom_prefix {ty : String} : "Custom::".toList <+: ty.toList ↔ ∃ s, ty = "Custom::" ++ s := by
  constructor
  · rintro ⟨cs, h⟩
    refine ⟨String.ofList cs, ?_⟩
    apply String.toList_inj.1
    rw [← h, String.toList_append, String.toList_ofList (l := cs)]
  · rintro ⟨s, rfl⟩
    rw [String.toList_append]
    exact List.prefix_append _ _

/-- **C60** The properties of custom resources that have no specification of their own are checked against that of
`AWS::CloudFormation::CustomResource`. Types are texts and properties objects. -/
theorem C60_custom_partial {specs : List (String × Val)} {top rs : List (Key × Val)} {names : List String}
    (hrs : dlookup (Key.str "Resources") top = some (.dict rs))
    (hnames : requiredAttrs ((dlookup "AWS::CloudFormation::CustomResource" specs).getD .none) = .ok names)
    (hty : ∀ name r ty, (name, Val.dict r) ∈ rs → dlookup (Key.str "Type") r = some ty → ∃ s, ty = .str s)
    (hobj : ∀ name props, CustomProps (specs.map Prod.fst) rs name props →
      ∃ kvs, props = .dict kvs ∧ props.WF ∧ ∀ q u, Leaf props q u → ∃ l, u = .dict l) :
    ∃ res, requiredCustom specs (.dict top) = .ok res ∧ ∀ p n, (p, n) ∈ res ↔ n ∈ names ∧
      ∃ name props q l, CustomProps (specs.map Prod.fst) rs name props ∧ Leaf props q (.dict l) ∧
        p = [.str "Resources", name, .str "Properties"] ++ q ∧ ∀ v, (Key.str n, v) ∈ l → v = noValue := by
  have hget : getResources (.dict top) = .ok (rs.filter isTyped) := by
    unfold getResources
    simp [Val.getD, hrs]
  have hbody : ∀ kv ∈ rs.filter isTyped, ∃ l, requiredCustomAt specs kv = .ok l ∧ ∀ p n, (p, n) ∈ l ↔ n ∈ names ∧
      ∃ props q l', CustomProps (specs.map Prod.fst) [kv] kv.1 props ∧ Leaf props q (.dict l') ∧
        p = [.str "Resources", kv.1, .str "Properties"] ++ q ∧ ∀ v, (Key.str n, v) ∈ l' → v = noValue := by
    rintro ⟨name, v⟩ hm
    obtain ⟨hm1, hm2⟩ := List.mem_filter.1 hm
    have hempty : (∀ props, ¬ CustomProps (specs.map Prod.fst) [(name, v)] name props) → ∀ (p : Path) (n : String),
        (p, n) ∈ ([] : List (Path × String)) ↔ n ∈ names ∧ ∃ props q l',
          CustomProps (specs.map Prod.fst) [(name, v)] name props ∧ Leaf props q (.dict l') ∧
          p = [.str "Resources", name, .str "Properties"] ++ q ∧ ∀ v, (Key.str n, v) ∈ l' → v = noValue := by
      intro h p n
      refine ⟨fun h => (by cases h), ?_⟩
      rintro ⟨_, props, _, _, hc, _⟩
      exact absurd hc (h props)
    cases v with
    | dict r =>
      unfold requiredCustomAt
      simp only
      cases hp : dlookup (Key.str "Properties") r with
      | none =>
        simp only
        refine ⟨_, rfl, hempty ?_⟩
        rintro props ⟨r', ty, hmem, _, _, h⟩
        simp at hmem
        subst hmem
        rw [hp] at h
        cases h
      | some props =>
        cases ht : dlookup (Key.str "Type") r with
        | none => simp [isTyped, ht] at hm2
        | some tv =>
          obtain ⟨ty, rfl⟩ := hty name r tv hm1 ht
          simp only
          split
          · rename_i hc
            obtain ⟨hc1, hc2⟩ := hc
            obtain ⟨s, rfl⟩ := custom_prefix.1 hc1
            have hcp : CustomProps (specs.map Prod.fst) [(name, .dict r)] name props :=
              ⟨r, s, List.mem_singleton.2 rfl, ht, by
                rw [← dhas_iff, hc2]; simp, hp⟩
            obtain ⟨kvs, rfl, hw, hl⟩ := hobj name props ⟨r, s, hm1, ht, by
                rw [← dhas_iff, hc2]; simp, hp⟩
            rw [hnames]
            obtain ⟨res, h1, h2⟩ := C60_reports names kvs [.str "Resources", name, .str "Properties"] hw hl
            refine ⟨res, h1, ?_⟩
            intro p n
            rw [h2]
            refine and_congr_right (fun _ => ?_)
            constructor
            · rintro ⟨q, l', h⟩; exact ⟨_, q, l', hcp, h⟩
            · rintro ⟨props', q, l', ⟨r', ty', hmem, ht', hn', hp'⟩, h⟩
              simp at hmem
              subst hmem
              rw [hp] at hp'
              injection hp' with hp'
              subst hp'
              exact ⟨q, l', h⟩
          · rename_i hc
            refine ⟨_, rfl, hempty ?_⟩
            rintro props' ⟨r', ty', hmem, ht', hn', hp'⟩
            simp at hmem
            subst hmem
            rw [ht] at ht'
            injection ht' with ht'
            injection ht' with ht'
            subst ht'
            refine hc ⟨custom_prefix.2 ⟨_, rfl⟩, ?_⟩
            rw [← Bool.not_eq_true, dhas_iff]
            exact hn'
    | _ => simp [isTyped] at hm2
  obtain ⟨res, hres⟩ := collectM_ok (as := rs.filter isTyped) (f := requiredCustomAt specs) (fun kv hkv => by
    obtain ⟨l, h, _⟩ := hbody kv hkv
    exact ⟨l, h⟩)
  refine ⟨res, by unfold requiredCustom; rw [hget]; exact hres, ?_⟩
  intro p n
  rw [mem_collectM hres]
  constructor
  · rintro ⟨kv, hkv, l, hl, hm⟩
    obtain ⟨l0, h1, h2⟩ := hbody kv hkv
    rw [hl] at h1
    injection h1 with h1
    subst h1
    obtain ⟨hn, props, q, l', ⟨r, ty, hmem, h3⟩, h4⟩ := (h2 p n).1 hm
    rw [List.mem_singleton] at hmem
    refine ⟨hn, kv.1, props, q, l', ⟨r, ty, ?_, h3⟩, h4⟩
    rw [hmem]
    exact (List.mem_filter.1 hkv).1
  · rintro ⟨hn, name, props, q, l', ⟨r, ty, hmem, h3, h3'⟩, h4⟩
    have hkv : (name, Val.dict r) ∈ rs.filter isTyped := List.mem_filter.2 ⟨hmem, by simp [isTyped, h3]⟩
    obtain ⟨l0, h1, h2⟩ := hbody _ hkv
    exact ⟨_, hkv, l0, h1, (h2 p n).2 ⟨hn, props, q, l', ⟨r, ty, List.mem_singleton.2 rfl, h3, h3'⟩, h4⟩⟩

/-- a resource whose type is not a text raises -/
theorem C60_custom_type_violated : requiredCustom [] (.dict [(.str "Resources", .dict [(.str "R", .dict [(.str "Type", .int 1),
    (.str "Properties", .dict [])])])]) = .error (attrErr (.int 1) "startswith") := by decide

/-! ### Witnesses -/

/-- an object given by a condition: one branch has the property, the other a reference to `AWS::NoValue` for it -/
def exReq : List (Key × Val) := [(.str "Fn::If", .list [.str "C", .dict [(.str "A", .int 1)],
  .dict [(.str "A", noValue), (.str "B", .int 1)]])]

theorem exReq_leaf : ∀ q u, Leaf (.dict exReq) q u → (q = [.str "Fn::If", .int 1] ∧ u = .dict [(.str "A", .int 1)]) ∨
    (q = [.str "Fn::If", .int 2] ∧ u = .dict [(.str "A", noValue), (.str "B", .int 1)]) := by
  intro q u h
  generalize hv : Val.dict exReq = v at h
  cases h with
  | here hn => subst hv; exact absurd ⟨_, rfl⟩ hn
  | left h =>
    simp [exReq, fnIf] at hv
    obtain ⟨_, rfl, _⟩ := hv
    generalize hv : Val.dict _ = v at h
    cases h with
    | here => exact .inl ⟨rfl, rfl⟩
    | left => simp [fnIf] at hv
    | right => simp [fnIf] at hv
  | right h =>
    simp [exReq, fnIf] at hv
    obtain ⟨_, _, rfl⟩ := hv
    generalize hv : Val.dict _ = v at h
    cases h with
    | here => exact .inr ⟨rfl, rfl⟩
    | left => simp [fnIf] at hv
    | right => simp [fnIf] at hv

/-- the hypotheses of the theorems above hold of `exReq`, and `A` is reported in the second branch only -/
example : (Val.dict exReq).WF ∧ (∀ q u, Leaf (.dict exReq) q u → ∃ l, u = .dict l) ∧ NoRepeat [] (.dict exReq) ∧
    (∀ q l v, Leaf (.dict exReq) q (.dict l) → (Key.str "A", v) ∈ l → ¬ IsIf v) ∧
    requiredCheck ["A"] (.dict exReq) [] = .ok [([.str "Fn::If", .int 2], "A")] := by
  refine ⟨by simp [exReq, Val.WF, Val.WFDict, Val.WFList, noValue], ?_, ?_, ?_, by decide⟩
  · intro q u h
    rcases exReq_leaf q u h with ⟨_, rfl⟩ | ⟨_, rfl⟩
    · exact ⟨_, rfl⟩
    · exact ⟨_, rfl⟩
  · exact .branch (by simp) (.leaf (by rintro ⟨w, h⟩; simp at h)) (.leaf (by rintro ⟨w, h⟩; simp at h))
  · intro q l v h hm
    rcases exReq_leaf q _ h with ⟨_, he⟩ | ⟨_, he⟩
    · injection he with he
      subst he
      simp at hm
      subst hm
      rintro ⟨w, h⟩; simp at h
    · injection he with he
      subst he
      simp at hm
      subst hm
      rintro ⟨w, h⟩; simp [noValue] at h

/-- the specification of a custom resource, abridged -/
def exCustomSpec : List (String × Val) := [("AWS::CloudFormation::CustomResource", .dict [(.str "Properties", .dict [
  (.str "ServiceToken", .dict [(.str "Required", .bool true)]), (.str "Other", .dict [(.str "Required", .bool false)])])])]

example : requiredAttrs ((dlookup "AWS::CloudFormation::CustomResource" exCustomSpec).getD .none) = .ok ["ServiceToken"] := by
  decide

example : requiredCustom exCustomSpec (.dict [(.str "Resources", .dict [(.str "R", .dict [(.str "Type", .str "Custom::X"),
    (.str "Properties", .dict [(.str "Other", .int 1)])])])]) =
    .ok [([.str "Resources", .str "R", .str "Properties"], "ServiceToken")] := by
  decide

end CfnLint
