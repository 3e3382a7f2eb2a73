import Mathlib.Data.List.Perm.Subperm
import Verif.Model.Targets
import Verif.Spec.Targets
import Verif.Lemmas.CheckOnly
import Verif.Props.ListSpecs
/-
C91: the number of targets of event rules.
-/
namespace CfnLint
open Spec

/-- the paths of the values that are no calls -/
theorem checkLoop_places {path : Path} : ∀ {r : List (Path × Val)} {acc : List Path},
    ∃ r' : List (Path × Val), r'.Sublist r ∧ (∀ pv, pv ∈ r' ↔ pv ∈ r ∧ NoCall pv.2) ∧
      checkLoop { value := some (fun _ p => .ok [p]) } path r acc = .ok (acc ++ r'.map (fun pv => path ++ pv.1))
  | [], acc => ⟨[], .slnil, by simp, by simp [checkLoop]⟩
  | (p, v) :: r, acc => by
    rw [checkLoop]
    rcases checkOne_only (fun _ p => .ok [p]) v (path ++ p) with ⟨hn, e⟩ | ⟨hn, e⟩
    · obtain ⟨r', hs, hm, he⟩ := checkLoop_places (path := path) (r := r) (acc := acc ++ [path ++ p])
      refine ⟨(p, v) :: r', hs.cons₂ _, fun pv => ?_, by rw [e]; simp only; rw [he]; simp⟩
      rw [List.mem_cons, List.mem_cons, hm]
      constructor
      · rintro (rfl | h)
        · exact ⟨.inl rfl, hn⟩
        · exact ⟨.inr h.1, h.2⟩
      · rintro ⟨rfl | h, h'⟩
        · exact .inl rfl
        · exact .inr ⟨h, h'⟩
    · obtain ⟨r', hs, hm, he⟩ := checkLoop_places (path := path) (r := r) (acc := acc ++ [])
      refine ⟨r', hs.cons _, fun pv => ?_, by rw [e]; simp only; rw [he]; simp⟩
      rw [List.mem_cons, hm]
      constructor
      · rintro h; exact ⟨.inr h.1, h.2⟩
      · rintro ⟨rfl | h, h'⟩
        · exact absurd h' hn
        · exact ⟨h, h'⟩

/-- a target of the value at the path -/
def TargetAt (v : Val) (p : Path) : Prop := ∃ u, PropValue v p u ∧ NoCall u

/-- the value of the property has a place and no nulls -/
structure SomeTargets (v : Val) : Prop where
  notNone : v ≠ .none
  noNull : ∀ q, ¬ Leaf v q .none

theorem places_spec {kvs : List (Key × Val)} {v : Val} (hk : dlookup (Key.str "Targets") kvs = some v) (h : SomeTargets v) (n : Nat) (path : Path) :
    ∃ ps : List Path, targetPlaces (n + 2) (.dict kvs) path = .ok (ps.map (fun p => path ++ .str "Targets" :: p)) ∧ ps.Nodup ∧
      ∀ p, p ∈ ps ↔ TargetAt v p := by
  obtain ⟨r, hr, hnd, hm⟩ := getValues_spec (n := n) (path := []) h.notNone h.noNull
  obtain ⟨r', hs, hm', he⟩ := checkLoop_places (path := path ++ [.str "Targets"]) (r := r) (acc := [])
  refine ⟨r'.map Prod.fst, ?_, (hs.map Prod.fst).nodup hnd, fun p => ?_⟩
  · simp only [targetPlaces, checkValue, hk, Option.getD_some, hr]
    rw [he]
    simp
  · simp only [List.mem_map, Prod.exists, exists_and_right, exists_eq_right, hm', hm]
    constructor
    · rintro ⟨u, ⟨q, hq, h1⟩, h2⟩
      simp at hq
      subst hq
      exact ⟨u, h1, h2⟩
    · rintro ⟨u, h1, h2⟩
      exact ⟨u, ⟨p, by simp, h1⟩, h2⟩

theorem places_none {kvs : List (Key × Val)} (hk : dlookup (Key.str "Targets") kvs = none) (n : Nat) (path : Path) :
    targetPlaces (n + 2) (.dict kvs) path = .ok [] := by
  simp [targetPlaces, checkValue, hk, getValues]

/-- the counts tell of each name how many of the paths have it, and where the first is -/
def Tally (name : Path → Key) (c : TargetCounts) (l : List Path) : Prop :=
  (c.map Prod.fst).Nodup ∧ ∀ k n q, (k, n, q) ∈ c ↔ ∃ p ps, l.filter (fun p => name p = k) = p :: ps ∧ n = ps.length + 1 ∧ q = p.dropLast

theorem tally_nil (name : Path → Key) : Tally name [] [] := ⟨by simp, by simp⟩

theorem tally_step {name : Path → Key} {c : TargetCounts} {l : List Path} {p : Path} (h : Tally name c l) (hp : targetName p = .ok (name p)) :
    ∃ c', countTarget c p = .ok c' ∧ Tally name c' (l ++ [p]) := by
  obtain ⟨hnd, hm⟩ := h
  unfold countTarget
  rw [hp]
  simp only
  cases hd : dlookup (name p) c with
  | none =>
    refine ⟨_, rfl, ?_, fun k n q => ?_⟩
    · rw [List.map_append, List.map_singleton]
      refine List.nodup_append.2 ⟨hnd, by simp, ?_⟩
      rintro a ha b hb rfl
      cases List.mem_singleton.1 hb
      obtain ⟨⟨k, e⟩, hm, rfl⟩ := List.mem_map.1 ha
      rw [dlookup_of_mem hnd hm] at hd
      cases hd
    · rw [List.mem_append, hm, List.filter_append, List.mem_singleton]
      have hz : l.filter (fun x => name x = name p) = [] := by
        cases hf : l.filter (fun x => name x = name p) with
        | nil => rfl
        | cons a as =>
          have := (hm (name p) _ _).2 ⟨a, as, hf, rfl, rfl⟩
          rw [dlookup_of_mem hnd this] at hd
          cases hd
      by_cases hk : name p = k
      · subst hk
        rw [hz]
        simp only [List.filter_cons, decide_true, if_true, List.filter_nil, List.nil_append, List.cons.injEq]
        constructor
        · rintro (⟨_, _, h, -⟩ | h)
          · cases h
          · cases h; exact ⟨p, [], ⟨rfl, rfl⟩, rfl, rfl⟩
        · rintro ⟨p', ps, ⟨rfl, rfl⟩, rfl, rfl⟩
          exact .inr rfl
      · rw [show [p].filter (fun x => name x = k) = [] by simp [hk], List.append_nil]
        constructor
        · rintro (h | h)
          · exact h
          · cases h; exact absurd rfl hk
        · intro h; exact .inl h
  | some e =>
    refine ⟨_, rfl, ?_, fun k n q => ?_⟩
    · rw [List.map_map]
      have : (Prod.fst ∘ fun e : Key × Nat × Path => if e.1 = name p then (e.1, e.2.1 + 1, e.2.2) else e) = Prod.fst := by
        funext e
        simp only [Function.comp]
        split <;> rfl
      rw [this]
      exact hnd
    · rw [List.filter_append, List.mem_map]
      constructor
      · rintro ⟨⟨k', n', q'⟩, h1, h2⟩
        obtain ⟨a, as, h3, rfl, rfl⟩ := (hm _ _ _).1 h1
        by_cases hk : k' = name p
        · rw [if_pos hk] at h2
          cases h2
          subst hk
          exact ⟨a, as ++ [p], by rw [h3]; simp, by simp, rfl⟩
        · rw [if_neg hk] at h2
          cases h2
          exact ⟨a, as, by rw [h3]; simp [Ne.symm hk], rfl, rfl⟩
      · rintro ⟨a, as, h1, rfl, rfl⟩
        by_cases hk : k = name p
        · subst hk
          obtain ⟨n', q'⟩ := e
          obtain ⟨b, bs, h2, rfl, rfl⟩ := (hm _ _ _).1 (dlookup_mem hd)
          refine ⟨_, dlookup_mem hd, ?_⟩
          rw [h2] at h1
          simp only [List.cons_append, List.cons.injEq] at h1
          obtain ⟨rfl, h1⟩ := h1
          rw [← h1]
          simp
        · rw [show [p].filter (fun x => name x = k) = [] by simp [Ne.symm hk], List.append_nil] at h1
          exact ⟨_, (hm _ _ _).2 ⟨a, as, h1, rfl, rfl⟩, by rw [if_neg hk]⟩

theorem tally_all {name : Path → Key} : ∀ {ps : List Path} {c : TargetCounts} {l : List Path}, Tally name c l → (∀ p ∈ ps, targetName p = .ok (name p)) →
    ∃ c', countTargets c ps = .ok c' ∧ Tally name c' (l ++ ps)
  | [], c, l, h, _ => ⟨c, rfl, by rwa [List.append_nil]⟩
  | p :: ps, c, l, h, hp => by
    obtain ⟨c1, e1, h1⟩ := tally_step h (hp p (by simp))
    obtain ⟨c2, e2, h2⟩ := tally_all h1 (fun q hq => hp q (List.mem_cons_of_mem _ hq))
    refine ⟨c2, by simp only [countTargets, e1, e2], ?_⟩
    rw [List.append_assoc] at h2
    exact h2

theorem over_iff {name : Path → Key} {c : TargetCounts} {l : List Path} (h : Tally name c l) (q : Path) :
    q ∈ overLimit c ↔ ∃ k p ps, l.filter (fun p => name p = k) = p :: ps ∧ 5 ≤ ps.length ∧ q = p.dropLast := by
  unfold overLimit
  rw [List.mem_flatMap]
  constructor
  · rintro ⟨⟨k, n, q'⟩, h1, h2⟩
    obtain ⟨a, as, h3, rfl, rfl⟩ := (h.2 _ _ _).1 h1
    split at h2
    · rename_i h4
      cases List.mem_singleton.1 h2
      exact ⟨k, a, as, h3, by simp only at h4; omega, rfl⟩
    · cases h2
  · rintro ⟨k, p, ps, h1, h2, rfl⟩
    refine ⟨_, (h.2 _ _ _).2 ⟨p, ps, h1, rfl, rfl⟩, ?_⟩
    rw [if_pos (by simp only; omega)]
    simp

/-- the name, where there is one -/
def keyOf (p : Path) : Key :=
  match targetName p with
  | .ok k => k
  | .error _ => .int 0

/-- the name under which the targets of a rule are counted -/
def groupKey (name : Key) : Option Key → Key
  | none => name
  | some b => .str (textOfKey name ++ "." ++ textOfKey b)

/-- a path of a leaf is empty or begins with a branch -/
theorem leaf_shape {v u : Val} {q : Path} (h : Leaf v q u) :
    q = [] ∨ ∃ b r, (b = 1 ∨ b = 2) ∧ q = .str "Fn::If" :: .int b :: r := by
  cases h with
  | here => exact .inl rfl
  | left => exact .inr ⟨1, _, .inl rfl, rfl⟩
  | right => exact .inr ⟨2, _, .inr rfl, rfl⟩

theorem target_shape {v : Val} {p : Path} (h : TargetAt v p) :
    p = [] ∨ (∃ i r, p = .int i :: r) ∨ ∃ b r, (b = 1 ∨ b = 2) ∧ p = .str "Fn::If" :: .int b :: r := by
  obtain ⟨u, ⟨q, w, hl, (⟨-, rfl, -⟩ | ⟨xs, i, x, r, -, -, -, rfl⟩)⟩, -⟩ := h
  · rcases leaf_shape hl with h | h
    · exact .inl h
    · exact .inr (.inr h)
  · rcases leaf_shape hl with rfl | ⟨b, r', hb, rfl⟩
    · exact .inr (.inl ⟨_, _, rfl⟩)
    · exact .inr (.inr ⟨b, _, hb, rfl⟩)

theorem target_name {v : Val} {p : Path} (h : TargetAt v p) (name : Key) :
    targetName (targetsOf name ++ p) = .ok (groupKey name (outerBranch p)) := by
  rcases target_shape h with rfl | ⟨i, r, rfl⟩ | ⟨b, r, -, rfl⟩
  · rfl
  · simp [targetName, targetsOf, outerBranch, groupKey]
  · simp [targetName, targetsOf, outerBranch, groupKey]

theorem target_branch {v : Val} {p : Path} (h : TargetAt v p) : outerBranch p = none ∨ outerBranch p = some (.int 1) ∨ outerBranch p = some (.int 2) := by
  rcases target_shape h with rfl | ⟨i, r, rfl⟩ | ⟨b, r, (rfl | rfl), rfl⟩ <;> simp [outerBranch]

/-- a name of a resource that is a text without a full stop -/
def DotFree (k : Key) : Prop := ∃ s : String, k = .str s ∧ '.' ∉ s.toList

theorem split_at_dot : ∀ {a b c d : List Char}, '.' ∉ a → '.' ∉ b → a ++ '.' :: c = b ++ '.' :: d → a = b ∧ c = d
  | [], [], _, _, _, _, h => by simpa using h
  | [], x :: b, _, _, _, hb, h => by
    simp only [List.nil_append, List.cons_append, List.cons.injEq] at h
    exact absurd (h.1 ▸ List.mem_cons_self) hb
  | x :: a, [], _, _, ha, _, h => by
    simp only [List.nil_append, List.cons_append, List.cons.injEq] at h
    exact absurd (h.1 ▸ List.mem_cons_self) ha
  | x :: a, y :: b, c, d, ha, hb, h => by
    simp only [List.cons_append, List.cons.injEq] at h
    obtain ⟨h1, h2⟩ := split_at_dot (fun m => ha (List.mem_cons_of_mem _ m)) (fun m => hb (List.mem_cons_of_mem _ m)) h.2
    exact ⟨by rw [h.1, h1], h2⟩

theorem dotted_toList (s t : String) : (s ++ "." ++ t).toList = s.toList ++ '.' :: t.toList := by
  rw [String.toList_append, String.toList_append, show ".".toList = ['.'] from rfl, List.append_assoc]
  rfl

theorem groupKey_inj {a b : Key} {g h : Option Key} (ha : DotFree a) (hb : DotFree b)
    (hg : g = none ∨ g = some (.int 1) ∨ g = some (.int 2)) (hh : h = none ∨ h = some (.int 1) ∨ h = some (.int 2))
    (e : groupKey a g = groupKey b h) : a = b ∧ g = h := by
  obtain ⟨s, rfl, hs⟩ := ha
  obtain ⟨t, rfl, ht⟩ := hb
  have key : ∀ x y : Key, groupKey (.str s) (some x) = groupKey (.str t) (some y) → s = t ∧ (textOfKey x).toList = (textOfKey y).toList := by
    intro x y e
    simp only [groupKey, textOfKey, Key.str.injEq] at e
    have := congrArg String.toList e
    rw [dotted_toList, dotted_toList] at this
    obtain ⟨h1, h2⟩ := split_at_dot hs ht this
    exact ⟨String.toList_inj.1 h1, h2⟩
  have no : ∀ (s t : String) (x : Key), '.' ∉ s.toList → groupKey (.str s) none ≠ groupKey (.str t) (some x) := by
    intro s t x hs e
    simp only [groupKey, Key.str.injEq] at e
    apply hs
    rw [e, dotted_toList]
    simp
  have n12 : (textOfKey (.int 1)).toList ≠ (textOfKey (.int 2)).toList := by decide +kernel
  rcases hg with rfl | rfl | rfl <;> rcases hh with rfl | rfl | rfl
  · exact ⟨e, rfl⟩
  · exact absurd e (no _ _ _ hs)
  · exact absurd e (no _ _ _ hs)
  · exact absurd e.symm (no _ _ _ ht)
  · exact ⟨by rw [(key _ _ e).1], rfl⟩
  · exact absurd (key _ _ e).2 n12
  · exact absurd e.symm (no _ _ _ ht)
  · exact absurd (key _ _ e).2.symm n12
  · exact ⟨by rw [(key _ _ e).1], rfl⟩

/-- a rule whose properties are an object; its targets, where it has some, are not null -/
def GoodRule (r : Key × Val) : Prop := ∃ kvs, r.2 = .dict kvs ∧ ∀ v, dlookup (Key.str "Targets") kvs = some v → SomeTargets v

/-- the value of the property `Targets` -/
def TargetsVal (r : Key × Val) (v : Val) : Prop := ∃ kvs, r.2 = .dict kvs ∧ dlookup (Key.str "Targets") kvs = some v

/-- the paths counted for a rule -/
def placesOf (n : Nat) (r : Key × Val) : List Path :=
  match targetPlaces (n + 2) r.2 [.str "Resources", r.1, .str "Properties"] with
  | .ok ps => ps
  | .error _ => []

theorem placesOf_spec {r : Key × Val} (h : GoodRule r) (n : Nat) :
    targetPlaces (n + 2) r.2 [.str "Resources", r.1, .str "Properties"] = .ok (placesOf n r) ∧ (placesOf n r).Nodup ∧
      ∀ p, p ∈ placesOf n r ↔ ∃ v q, TargetsVal r v ∧ TargetAt v q ∧ p = targetsOf r.1 ++ q := by
  obtain ⟨name, w⟩ := r
  obtain ⟨kvs, hk, hv⟩ := h
  simp only at hk
  subst hk
  cases hd : dlookup (Key.str "Targets") kvs with
  | none =>
    have := places_none hd n [.str "Resources", name, .str "Properties"]
    have e : placesOf n (name, .dict kvs) = [] := by simp only [placesOf, this]
    refine ⟨by rw [e]; exact this, by rw [e]; simp, fun p => ?_⟩
    rw [e]
    constructor
    · intro h; cases h
    · rintro ⟨v, q, ⟨kvs', h1, h2⟩, -⟩
      cases h1
      rw [hd] at h2
      cases h2
  | some v =>
    obtain ⟨ps, h1, h2, h3⟩ := places_spec hd (hv v hd) n [.str "Resources", name, .str "Properties"]
    have e : placesOf n (name, .dict kvs) = ps.map (fun p => targetsOf name ++ p) := by simp only [placesOf, h1]; rfl
    refine ⟨by rw [e]; exact h1, ?_, fun p => ?_⟩
    · rw [e]
      exact h2.map (fun a b h => List.append_cancel_left h)
    · rw [e, List.mem_map]
      constructor
      · rintro ⟨q, hq, rfl⟩
        exact ⟨v, q, ⟨kvs, rfl, hd⟩, (h3 q).1 hq, rfl⟩
      · rintro ⟨v', q, ⟨kvs', e1, e2⟩, h4, rfl⟩
        cases e1
        rw [hd] at e2
        cases e2
        exact ⟨q, (h3 q).2 h4, rfl⟩

theorem places_named {r : Key × Val} (h : GoodRule r) {n : Nat} {p : Path} (hp : p ∈ placesOf n r) : targetName p = .ok (keyOf p) := by
  obtain ⟨v, q, -, hq, rfl⟩ := ((placesOf_spec h n).2.2 p).1 hp
  unfold keyOf
  rw [target_name hq]

/-- more than five of the paths have the same name; the first of them is reported -/
def OverIn (l : List Path) (q : Path) : Prop := ∃ k p ps, l.filter (fun p => keyOf p = k) = p :: ps ∧ 5 ≤ ps.length ∧ q = p.dropLast

theorem targetsRun_spec (n : Nat) : ∀ {rs : List (Key × Val)} {c : TargetCounts} {l : List Path}, Tally keyOf c l → (∀ r ∈ rs, GoodRule r) →
    ∃ res, targetsRun (n + 2) c rs = .ok res ∧
      ∀ q, q ∈ res ↔ ∃ pre x post, rs = pre ++ x :: post ∧ OverIn (l ++ (pre ++ [x]).flatMap (placesOf n)) q
  | [], c, l, _, _ => ⟨[], rfl, fun q => ⟨fun h => (by cases h), by rintro ⟨pre, x, post, h, -⟩; simp at h⟩⟩
  | r :: rs, c, l, ht, hr => by
    have hg := hr r List.mem_cons_self
    obtain ⟨c', e, ht'⟩ := tally_all ht (fun p hp => places_named hg (n := n) hp)
    obtain ⟨res, er, hres⟩ := targetsRun_spec n ht' (fun r h => hr r (List.mem_cons_of_mem _ h))
    refine ⟨overLimit c' ++ res, ?_, fun q => ?_⟩
    · simp only [targetsRun, targetsStep, (placesOf_spec hg n).1, e, er]
    · rw [List.mem_append, over_iff ht', hres]
      constructor
      · rintro (h | ⟨pre, x, post, rfl, h⟩)
        · exact ⟨[], r, rs, rfl, by simpa [OverIn] using h⟩
        · exact ⟨r :: pre, x, post, rfl, by simpa [List.append_assoc] using h⟩
      · rintro ⟨pre, x, post, h, ho⟩
        cases pre with
        | nil =>
          simp only [List.nil_append, List.cons.injEq] at h
          obtain ⟨rfl, rfl⟩ := h
          exact .inl (by simpa [OverIn] using ho)
        | cons y pre =>
          simp only [List.cons_append, List.cons.injEq] at h
          obtain ⟨rfl, rfl⟩ := h
          exact .inr ⟨pre, x, post, rfl, by simpa [List.append_assoc] using ho⟩

/-- a target of the value within the branch -/
def InBranch (v : Val) (g : Option Key) (p : Path) : Prop := TargetAt v p ∧ outerBranch p = g

/-- the rules of a template: the names are different texts without full stops -/
structure GoodRules (rs : List (Key × Val)) : Prop where
  good : ∀ r ∈ rs, GoodRule r
  names : ∀ r ∈ rs, DotFree r.1
  distinct : (rs.map Prod.fst).Nodup

theorem rules_same {rs : List (Key × Val)} (h : GoodRules rs) {r s : Key × Val} (hr : r ∈ rs) (hs : s ∈ rs) (e : r.1 = s.1) : r = s :=
  List.inj_on_of_nodup_map h.distinct hr hs e

theorem targetsVal_unique {r : Key × Val} {v w : Val} (h : TargetsVal r v) (h' : TargetsVal r w) : v = w := by
  obtain ⟨k, e1, e2⟩ := h
  obtain ⟨k', e1', e2'⟩ := h'
  rw [e1] at e1'
  cases e1'
  rw [e2] at e2'
  cases e2'
  rfl

/-- C91: what is reported is the list around the first of more than five targets that stand in the same branch of the outermost condition of the
    same rule. -/
theorem C91_reported {rs : List (Key × Val)} (h : GoodRules rs) (n : Nat) :
    ∃ res, targetsRun (n + 2) [] rs = .ok res ∧
      ∀ q ∈ res, ∃ r v g p, r ∈ rs ∧ TargetsVal r v ∧ MoreThan 5 (InBranch v g) ∧ InBranch v g p ∧ q = (targetsOf r.1 ++ p).dropLast := by
  obtain ⟨res, e, hres⟩ := targetsRun_spec n (tally_nil keyOf) h.good
  refine ⟨res, e, fun q hq => ?_⟩
  obtain ⟨pre, x, post, rfl, k, p, ps, hf, hl, rfl⟩ := (hres q).1 hq
  rw [List.nil_append] at hf
  have mem : ∀ p' ∈ p :: ps, ∃ r v q, r ∈ pre ++ [x] ∧ TargetsVal r v ∧ TargetAt v q ∧ p' = targetsOf r.1 ++ q ∧ groupKey r.1 (outerBranch q) = k := by
    intro p' hp'
    rw [← hf, List.mem_filter, List.mem_flatMap, decide_eq_true_eq] at hp'
    obtain ⟨⟨r, hr, hp⟩, hk⟩ := hp'
    have hr' : r ∈ pre ++ x :: post := by
      rw [List.mem_append, List.mem_singleton] at hr
      rw [List.mem_append, List.mem_cons]
      exact hr.imp_right .inl
    obtain ⟨v, q, hv, hq, rfl⟩ := ((placesOf_spec (h.good r hr') n).2.2 p').1 hp
    refine ⟨r, v, q, hr, hv, hq, rfl, ?_⟩
    rw [← hk]
    unfold keyOf
    rw [target_name hq]
  have into : ∀ r, r ∈ pre ++ [x] → r ∈ pre ++ x :: post := by
    intro r hr
    rw [List.mem_append, List.mem_singleton] at hr
    rw [List.mem_append, List.mem_cons]
    exact hr.imp_right .inl
  clear hq
  obtain ⟨r, v, q, hr, hv, hq, rfl, hk⟩ := mem p List.mem_cons_self
  refine ⟨r, v, outerBranch q, q, into r hr, hv, ?_, ⟨hq, rfl⟩, rfl⟩
  have nd : ((pre ++ [x]).flatMap (placesOf n)).Nodup := by
    rw [List.nodup_flatMap]
    refine ⟨fun r hr => (placesOf_spec (h.good r (into r hr)) n).2.1, ?_⟩
    have hd : ((pre ++ [x]).map Prod.fst).Nodup := by
      refine h.distinct.sublist (List.Sublist.map _ ?_)
      exact List.Sublist.append (List.Sublist.refl _) (List.Sublist.cons₂ _ (List.nil_sublist _))
    have hd' : (pre ++ [x]).Pairwise (fun a b => a.1 ≠ b.1) := List.pairwise_map.1 hd
    refine hd'.imp_of_mem (fun {a b} ha hb hab p hpa hpb => hab ?_)
    obtain ⟨_, q1, -, -, e1⟩ := ((placesOf_spec (h.good a (into a ha)) n).2.2 p).1 hpa
    obtain ⟨_, q2, -, -, e2⟩ := ((placesOf_spec (h.good b (into b hb)) n).2.2 p).1 hpb
    rw [e1] at e2
    simp only [targetsOf, List.cons_append, List.cons.injEq] at e2
    exact e2.2.1
  have nd' : ((targetsOf r.1 ++ q) :: ps).Nodup := hf ▸ nd.filter _
  refine ⟨((targetsOf r.1 ++ q) :: ps).map (List.drop 4), ?_, by simp only [List.length_map, List.length_cons]; omega, ?_⟩
  · refine List.Nodup.map_on ?_ nd'
    intro a ha b hb e
    obtain ⟨ra, va, qa, hra, hva, hqa, rfl, hka⟩ := mem a ha
    obtain ⟨rb, vb, qb, hrb, hvb, hqb, rfl, hkb⟩ := mem b hb
    have := groupKey_inj (h.names ra (into ra hra)) (h.names rb (into rb hrb)) (target_branch hqa) (target_branch hqb) (hka.trans hkb.symm)
    rw [this.1]
    have e' : qa = qb := by simpa [targetsOf] using e
    rw [e']
  · intro p hp
    obtain ⟨a, ha, rfl⟩ := List.mem_map.1 hp
    obtain ⟨ra, va, qa, hra, hva, hqa, rfl, hka⟩ := mem a ha
    have := groupKey_inj (h.names ra (into ra hra)) (h.names r (into r hr)) (target_branch hqa) (target_branch hq) (hka.trans hk.symm)
    have hrr := rules_same h (into ra hra) (into r hr) this.1
    subst hrr
    cases targetsVal_unique hva hv
    exact ⟨by simpa [targetsOf] using hqa, by simpa [targetsOf] using this.2⟩

/-- C91: more than five targets in the same branch of the outermost condition are reported. -/
theorem C91_complete {rs : List (Key × Val)} (h : GoodRules rs) (n : Nat) {r : Key × Val} {v : Val} {g : Option Key} (hr : r ∈ rs) (hv : TargetsVal r v)
    (hm : MoreThan 5 (InBranch v g)) :
    ∃ res q p, targetsRun (n + 2) [] rs = .ok res ∧ q ∈ res ∧ InBranch v g p ∧ q = (targetsOf r.1 ++ p).dropLast := by
  obtain ⟨res, e, hres⟩ := targetsRun_spec n (tally_nil keyOf) h.good
  obtain ⟨pre, post, hrs⟩ := List.append_of_mem hr
  obtain ⟨l, hnd, hlen, hl⟩ := hm
  let L := ((pre ++ [r]).flatMap (placesOf n)).filter (fun p => keyOf p = groupKey r.1 g)
  have into : ∀ s, s ∈ pre ++ [r] → s ∈ rs := by
    intro s hs
    rw [List.mem_append, List.mem_singleton] at hs
    rw [hrs, List.mem_append, List.mem_cons]
    exact hs.imp_right .inl
  have sub : l.map (fun p => targetsOf r.1 ++ p) ⊆ L := by
    intro p' hp'
    obtain ⟨p, hp, rfl⟩ := List.mem_map.1 hp'
    obtain ⟨ht, hb⟩ := hl p hp
    refine List.mem_filter.2 ⟨List.mem_flatMap.2 ⟨r, by simp, ((placesOf_spec (h.good r hr) n).2.2 _).2 ⟨v, p, hv, ht, rfl⟩⟩, ?_⟩
    rw [decide_eq_true_eq]
    unfold keyOf
    rw [target_name ht, hb]
  have hlen' : l.length ≤ L.length := by
    have := (List.subperm_of_subset (hnd.map (fun a b h => List.append_cancel_left h)) sub).length_le
    simpa using this
  cases hL : L with
  | nil => rw [hL] at hlen'; simp only [List.length_nil] at hlen'; omega
  | cons p ps =>
    rw [hL] at hlen'
    have hpL : p ∈ L := by rw [hL]; exact List.mem_cons_self
    obtain ⟨h1, h2⟩ := List.mem_filter.1 hpL
    obtain ⟨s, hs, h3⟩ := List.mem_flatMap.1 h1
    obtain ⟨w, q, hw, hq, rfl⟩ := ((placesOf_spec (h.good s (into s hs)) n).2.2 p).1 h3
    rw [decide_eq_true_eq] at h2
    unfold keyOf at h2
    rw [target_name hq] at h2
    simp only at h2
    obtain ⟨p0, l', rfl⟩ : ∃ p0 l', l = p0 :: l' := by
      cases l with
      | nil => simp at hlen
      | cons a b => exact ⟨a, b, rfl⟩
    have hb0 := hl p0 List.mem_cons_self
    have := groupKey_inj (h.names s (into s hs)) (h.names r hr) (target_branch hq) (hb0.2 ▸ target_branch hb0.1) h2
    have hsr := rules_same h (into s hs) hr this.1
    subst hsr
    cases targetsVal_unique hw hv
    refine ⟨res, _, q, e, (hres _).2 ⟨pre, s, post, hrs, groupKey s.1 g, _, ps, ?_, ?_, rfl⟩, ⟨hq, this.2⟩, rfl⟩
    · rw [List.nil_append]; exact hL
    · simp only [List.length_cons] at hlen hlen'; omega

theorem leaf_steady {x w : Val} {r : Path} (hx : Steady x) (h : Leaf x r w) : r = [] ∧ w = x := by
  cases h with
  | here => exact ⟨rfl, rfl⟩
  | left => exact absurd ⟨_, rfl⟩ hx.1
  | right => exact absurd ⟨_, rfl⟩ hx.1

/-- the targets of a list without conditions: its elements -/
theorem targetAt_list {xs : List Val} (hs : ∀ x ∈ xs, Steady x ∧ NoCall x) (p : Path) :
    TargetAt (.list xs) p ↔ ∃ i : Nat, i < xs.length ∧ p = [.int i] := by
  have hn : ¬ IsIf (.list xs) := by rintro ⟨_, h⟩; cases h
  have hv : Val.list xs ≠ noValue := by intro h; cases h
  constructor
  · rintro ⟨u, ⟨q, w, hl, h⟩, -⟩
    cases hl with
    | here =>
      rcases h with ⟨h, -⟩ | ⟨ys, i, x, r, e, hi, hx, rfl⟩
      · exact absurd rfl (h xs)
      · cases e
        obtain ⟨rfl, -⟩ := leaf_steady (hs x (List.mem_of_getElem? hi)).1 hx
        exact ⟨i, (List.getElem?_eq_some_iff.1 hi).1, rfl⟩
  · rintro ⟨i, hi, rfl⟩
    have hm := List.getElem_mem hi
    exact ⟨xs[i], ⟨[], _, .here hn hv, .inr ⟨xs, i, xs[i], [], rfl, List.getElem?_eq_getElem hi, .here (hs _ hm).1.1 (hs _ hm).1.2.1, rfl⟩⟩, (hs _ hm).2⟩

/-- C91: a list without conditions is reported exactly if it has more than five elements. -/
theorem C91_plain_partial {rs : List (Key × Val)} (h : GoodRules rs) (n : Nat) {r : Key × Val} {xs : List Val} (hr : r ∈ rs)
    (hv : TargetsVal r (.list xs)) (hs : ∀ x ∈ xs, Steady x ∧ NoCall x) :
    ∃ res, targetsRun (n + 2) [] rs = .ok res ∧ (targetsOf r.1 ∈ res ↔ 5 < xs.length) := by
  obtain ⟨res, e, hres⟩ := C91_reported h n
  refine ⟨res, e, fun hq => ?_, fun hlen => ?_⟩
  · obtain ⟨s, v, g, p, hs', hv', ⟨l, hnd, hlen, hl⟩, hp, hq⟩ := hres _ hq
    have hpl : ∃ x, p = [x] := by
      have := congrArg List.length hq
      simp only [targetsOf, List.length_dropLast, List.length_append, List.length_cons, List.length_nil] at this
      exact List.length_eq_one_iff.1 (by omega)
    obtain ⟨x, rfl⟩ := hpl
    rw [List.dropLast_concat] at hq
    simp only [targetsOf, List.cons.injEq, and_true, true_and] at hq
    have := rules_same h hr hs' hq
    subst this
    cases targetsVal_unique hv' hv
    have sub : l ⊆ (List.range xs.length).map (fun i : Nat => [Key.int i]) := by
      intro p hp
      obtain ⟨i, hi, rfl⟩ := (targetAt_list hs p).1 (hl p hp).1
      exact List.mem_map.2 ⟨i, List.mem_range.2 hi, rfl⟩
    have := (List.subperm_of_subset hnd sub).length_le
    simp only [List.length_map, List.length_range] at this
    omega
  · obtain ⟨res', q, p, e', hq, hp, rfl⟩ := C91_complete h n hr hv (g := none)
      ⟨(List.range xs.length).map (fun i : Nat => [Key.int i]), List.nodup_range.map (fun a b e => by simp at e; omega), by simpa using hlen, fun p hp => by
        obtain ⟨i, hi, rfl⟩ := List.mem_map.1 hp
        exact ⟨(targetAt_list hs _).2 ⟨i, List.mem_range.1 hi, rfl⟩, rfl⟩⟩
    rw [e] at e'
    cases e'
    obtain ⟨i, -, rfl⟩ := (targetAt_list hs p).1 hp.1
    rwa [List.dropLast_concat] at hq

theorem chosen_leaf {σ : String → Bool} {v w : Val} {q : Path} (h : Chosen σ v q w) (hw : w ≠ noValue) : Leaf v q w := by
  induction h with
  | here hn => exact .here hn hw
  | left _ _ ih => exact .left (ih hw)
  | right _ _ ih => exact .right (ih hw)

/-- the elements that are kept, at different paths -/
theorem kept_paths {σ : String → Bool} : ∀ {xs : List Val} {k : Nat},
    (∀ x ∈ xs, ¬ Removed σ x → ∃ r w, Chosen σ x r w ∧ w ≠ noValue ∧ NoCall w) →
    ∃ l : List Path, l.Nodup ∧ l.length = sizeOfList σ xs ∧
      ∀ p ∈ l, ∃ (i : Nat) (x : Val) (r : Path) (w : Val), p = .int ((k + i : Nat) : Int) :: r ∧ xs[i]? = some x ∧ Leaf x r w ∧ NoCall w
  | [], k, _ => ⟨[], by simp, by simp [sizeOfList], by simp⟩
  | x :: xs, k, h => by
    obtain ⟨l, h1, h2, h3⟩ := kept_paths (k := k + 1) (xs := xs) (fun y hy => h y (List.mem_cons_of_mem _ hy))
    have tail : ∀ p ∈ l, ∃ (i : Nat) (y : Val) (r : Path) (w : Val), p = .int ((k + i : Nat) : Int) :: r ∧ (x :: xs)[i]? = some y ∧ Leaf y r w ∧ NoCall w := by
      intro p hp
      obtain ⟨i, y, r, w, e, h4, h5⟩ := h3 p hp
      exact ⟨i + 1, y, r, w, by rw [e, show k + 1 + i = k + (i + 1) by omega], by simpa using h4, h5⟩
    by_cases hx : Removed σ x
    · exact ⟨l, h1, by rw [h2]; simp [sizeOfList, hx], tail⟩
    · obtain ⟨r, w, hc, hw, hn⟩ := h x List.mem_cons_self hx
      refine ⟨(.int (k : Int) :: r) :: l, List.nodup_cons.2 ⟨fun hm => ?_, h1⟩, by simp [sizeOfList, hx, h2], fun p hp => ?_⟩
      · obtain ⟨i, y, r', w', e, -⟩ := h3 _ hm
        simp only [List.cons.injEq, Key.int.injEq] at e
        omega
      · rcases List.mem_cons.1 hp with rfl | hp
        · exact ⟨0, x, r, w, rfl, rfl, chosen_leaf hc hw, hn⟩
        · exact tail p hp

/-- C91: if under some truth values of the conditions the rule has more than five targets, none of which is a call, then it is reported. -/
theorem C91_deployed {rs : List (Key × Val)} (h : GoodRules rs) (n : Nat) {r : Key × Val} {v : Val} {σ : String → Bool} {q : Path} {xs : List Val}
    (hr : r ∈ rs) (hv : TargetsVal r v) (hc : Chosen σ v q (.list xs)) (hlen : 5 < sizeOfList σ xs)
    (hx : ∀ x ∈ xs, ¬ Removed σ x → ∃ s w, Chosen σ x s w ∧ w ≠ noValue ∧ NoCall w) :
    ∃ res p, targetsRun (n + 2) [] rs = .ok res ∧ targetsOf r.1 ++ p ∈ res := by
  obtain ⟨l, h1, h2, h3⟩ := kept_paths (k := 0) hx
  have hl : Leaf v q (.list xs) := chosen_leaf hc (by intro h; cases h)
  obtain ⟨g, hg⟩ : ∃ g, ∀ (i : Int) (s : Path), outerBranch (q ++ .int i :: s) = g := by
    rcases leaf_shape hl with rfl | ⟨b, s, -, rfl⟩
    · exact ⟨none, fun i s => rfl⟩
    · exact ⟨some (.int b), fun i s => rfl⟩
  obtain ⟨res, _, p, e, hq, hp, rfl⟩ := C91_complete h n hr hv (g := g)
    ⟨l.map (fun p => q ++ p), h1.map (fun a b e => List.append_cancel_left e), by simpa [h2] using hlen, fun p hp => by
      obtain ⟨p', hp', rfl⟩ := List.mem_map.1 hp
      obtain ⟨i, x, s, w, rfl, hi, hl', hn⟩ := h3 p' hp'
      exact ⟨⟨w, ⟨q, _, hl, .inr ⟨xs, i, x, s, rfl, hi, hl', by simp⟩⟩, hn⟩, hg _ _⟩⟩
  have hne : p ≠ [] := by
    rintro rfl
    obtain ⟨_, ⟨q', u, hl', h'⟩, -⟩ := hp.1
    rcases h' with ⟨hu, hq', -⟩ | ⟨_, _, _, _, -, -, -, hq'⟩
    · subst hq'
      have hg' := hp.2
      rcases leaf_shape hl with rfl | ⟨b, s, -, rfl⟩
      · cases hl
        cases hl'
        exact hu xs rfl
      · rw [← hg 0 []] at hg'
        simp [outerBranch] at hg'
    · simp at hq'
  exact ⟨res, p.dropLast, e, by rwa [List.dropLast_append_of_ne_nil hne] at hq⟩

/-- C91 in full: a rule is reported exactly if it has more than five targets under some truth values of the conditions. -/
def C91_statement : Prop :=
  ∀ (n : Nat) (r : Key × Val) (v : Val), GoodRules [r] → TargetsVal r v →
    ∀ res, targetsRun (n + 2) [] [r] = .ok res → ((∃ p, targetsOf r.1 ++ p ∈ res) ↔ ∃ σ m, ListOf σ v m ∧ 5 < m)

/-- a target -/
def oneTarget (s : String) : Val := .dict [(.str "Id", .str s)]

/-- four targets and one of two -/
def fiveTargets : Val := .list [oneTarget "a", oneTarget "b", oneTarget "c", oneTarget "d", fnIf (.str "C") (oneTarget "e") (oneTarget "f")]

theorem fiveTargets_run : targetsRun 2 [] [(.str "R", .dict [(.str "Targets", fiveTargets)])] = .ok [targetsOf (.str "R")] := by decide +kernel

theorem steady_target (s : String) : Steady (oneTarget s) ∧ NoCall (oneTarget s) := by
  refine ⟨⟨?_, ?_, ?_, ?_⟩, ?_⟩
  · rintro ⟨x, h⟩
    simp [oneTarget] at h
  · intro h
    simp [oneTarget, noValue] at h
  · intro h; cases h
  · intro xs h; cases h
  · intro name arg hn h
    simp only [oneTarget, Val.dict.injEq, List.cons.injEq, Prod.mk.injEq, Key.str.injEq] at h
    obtain ⟨⟨rfl, -⟩, -⟩ := h
    revert hn
    decide +kernel

theorem leaf_null {x : Val} {q : Path} (h : Leaf x q .none) : x = .none ∨ ∃ c a b q', x = fnIf c a b ∧ (Leaf a q' .none ∨ Leaf b q' .none) := by
  cases h with
  | here => exact .inl rfl
  | left h => exact .inr ⟨_, _, _, _, rfl, .inl h⟩
  | right h => exact .inr ⟨_, _, _, _, rfl, .inr h⟩

theorem some_list (xs : List Val) : SomeTargets (.list xs) := by
  refine ⟨by simp, fun q h => ?_⟩
  rcases leaf_null h with h | ⟨c, a, b, _, h, -⟩
  · cases h
  · cases h

theorem good_single {name : String} {v : Val} (hn : '.' ∉ name.toList) (h : SomeTargets v) : GoodRules [(.str name, .dict [(.str "Targets", v)])] := by
  refine ⟨fun r hr => ?_, fun r hr => ?_, by simp⟩
  · cases List.mem_singleton.1 hr
    refine ⟨_, rfl, fun w hw => ?_⟩
    simp [dlookup] at hw
    exact hw ▸ h
  · cases List.mem_singleton.1 hr
    exact ⟨name, rfl, hn⟩

theorem sizeOfList_le (σ : String → Bool) (xs : List Val) : sizeOfList σ xs ≤ xs.length := List.length_filter_le _ _

/-- C91: the rule reports four targets and one of two, though there are never more than five. -/
theorem C91_violated : ¬ C91_statement := by
  intro h
  obtain ⟨σ, m, ⟨q, xs, hc, rfl⟩, hm⟩ := (h 0 (.str "R", .dict [(.str "Targets", fiveTargets)]) fiveTargets (good_single (by decide +kernel) (some_list _))
    ⟨_, rfl, by simp [dlookup]⟩ _ fiveTargets_run).1 ⟨[], by simp⟩
  obtain ⟨-, e⟩ := (chosen_notIf (by rintro ⟨_, h⟩; cases h)).1 hc
  cases e
  exact absurd (hm.trans_le (sizeOfList_le σ _)) (by simp)

/-- C91: the branches of conditions within a branch are counted together. -/
theorem C91_nested_reported :
    targetsRun 2 [] [(.str "R", .dict [(.str "Targets",
      fnIf (.str "C") (fnIf (.str "D") (.list [oneTarget "a", oneTarget "b", oneTarget "c"]) (.list [oneTarget "d", oneTarget "e", oneTarget "f"]))
        (.list []))])] =
      .ok [targetsOf (.str "R") ++ [.str "Fn::If", .int 1, .str "Fn::If", .int 1]] := by decide +kernel

/-- C91: what is reported for a rule is reported again for each rule after it. -/
theorem C91_repeated :
    targetsRun 2 [] [(.str "R", .dict [(.str "Targets",
        .list [oneTarget "a", oneTarget "b", oneTarget "c", oneTarget "d", oneTarget "e", oneTarget "f"])]), (.str "S", .dict []), (.str "T", .dict [])] =
      .ok [targetsOf (.str "R"), targetsOf (.str "R"), targetsOf (.str "R")] := by decide +kernel

/-- C91: the targets of a rule whose name is that of another followed by `.1` are counted with those in the first branch of the other. -/
theorem C91_dotted_name :
    targetsRun 2 [] [(.str "R", .dict [(.str "Targets", fnIf (.str "C") (.list [oneTarget "a", oneTarget "b", oneTarget "c"]) (.list []))]),
      (.str "R.1", .dict [(.str "Targets", .list [oneTarget "d", oneTarget "e", oneTarget "f"])])] =
      .ok [targetsOf (.str "R") ++ [.str "Fn::If", .int 1]] := by decide +kernel

/-- six targets -/
def sixTargets : List Val := List.replicate 6 (oneTarget "a")

theorem sixTargets_mem {x : Val} (h : x ∈ sixTargets) : x = oneTarget "a" := (List.mem_replicate.1 h).2

theorem sixTargets_val : TargetsVal (.str "R", .dict [(.str "Targets", .list sixTargets)]) (.list sixTargets) := ⟨_, rfl, by simp only [dlookup, if_pos]⟩

theorem sixTargets_size (σ : String → Bool) : sizeOfList σ sixTargets = 6 := by
  classical
  unfold sizeOfList
  rw [List.filter_eq_self.2 (fun x hx => by
    rw [decide_eq_true_eq, sixTargets_mem hx, removed_not_if (steady_target _).1.1]
    exact (steady_target _).1.2.1)]
  rfl

/-- the hypotheses of `C91_reported`, `C91_complete` and `C91_plain_partial` are met -/
example : ∃ res, targetsRun 2 [] [(.str "R", .dict [(.str "Targets", .list sixTargets)])] = .ok res ∧
    (targetsOf (.str "R") ∈ res ↔ 5 < sixTargets.length) :=
  C91_plain_partial (good_single (by decide +kernel) (some_list _)) 0 List.mem_cons_self sixTargets_val
    (fun x hx => by rw [sixTargets_mem hx]; exact steady_target _)

/-- the hypotheses of `C91_deployed` are met -/
example : ∃ res p, targetsRun 2 [] [(.str "R", .dict [(.str "Targets", .list sixTargets)])] = .ok res ∧ targetsOf (.str "R") ++ p ∈ res :=
  C91_deployed (σ := fun _ => true) (good_single (by decide +kernel) (some_list _)) 0 List.mem_cons_self sixTargets_val
    (.here (by rintro ⟨_, h⟩; cases h)) (by rw [sixTargets_size]; decide)
    (fun x hx _ => ⟨[], x, by rw [sixTargets_mem hx]; exact .here (steady_target _).1.1, by rw [sixTargets_mem hx]; exact (steady_target _).1.2.1,
      by rw [sixTargets_mem hx]; exact (steady_target _).2⟩)

end CfnLint
