import Verif.Lemmas.Graph
import Verif.Props.CondGrammar
/- Results that are exactly the faults of a value. -/
namespace CfnLint
open Spec

/-- the findings are the faults `F`, placed at `p` -/
def Finds (x : PyM (List Path)) (p : Path) (F : Path → Prop) : Prop := ∃ l, x = .ok l ∧ ∀ q, q ∈ l ↔ ∃ r, q = p ++ r ∧ F r

theorem collectM_spec {α β : Type} {f : α → PyM (List β)} {as : List α} {P : α → β → Prop}
    (h : ∀ a ∈ as, ∃ l, f a = .ok l ∧ ∀ b, b ∈ l ↔ P a b) : ∃ r, collectM f as = .ok r ∧ ∀ b, b ∈ r ↔ ∃ a ∈ as, P a b := by
  obtain ⟨r, hr⟩ := collectM_ok (f := f) (as := as) (fun a ha => by
    obtain ⟨l, h1, -⟩ := h a ha
    exact ⟨l, h1⟩)
  refine ⟨r, hr, fun b => ?_⟩
  rw [mem_collectM hr]
  constructor
  · rintro ⟨a, ha, l, h1, h2⟩
    obtain ⟨l', h3, h4⟩ := h a ha
    rw [h1] at h3
    cases h3
    exact ⟨a, ha, (h4 b).1 h2⟩
  · rintro ⟨a, ha, hp⟩
    obtain ⟨l', h3, h4⟩ := h a ha
    exact ⟨a, ha, l', h3, (h4 b).2 hp⟩

theorem finds_none {p : Path} {F : Path → Prop} (h : ∀ r, ¬ F r) : Finds (.ok []) p F :=
  ⟨[], rfl, fun q => ⟨fun hm => (by cases hm), fun ⟨r, _, hr⟩ => absurd hr (h r)⟩⟩

theorem finds_one {p s : Path} {F : Path → Prop} (h : ∀ r, F r ↔ r = s) : Finds (.ok [p ++ s]) p F :=
  ⟨_, rfl, fun q => by simp [h]⟩

theorem finds_here {p : Path} {F : Path → Prop} (h : ∀ r, F r ↔ r = []) : Finds (.ok [p]) p F :=
  ⟨_, rfl, fun q => by simp [h]⟩

theorem finds_congr {x : PyM (List Path)} {p : Path} {F G : Path → Prop} (h : Finds x p F) (he : ∀ r, F r ↔ G r) : Finds x p G := by
  obtain ⟨l, h1, h2⟩ := h
  exact ⟨l, h1, fun q => by rw [h2]; simp only [he]⟩

theorem finds_shift {x : PyM (List Path)} {p s : Path} {F : Path → Prop} (h : Finds x (p ++ s) F) :
    Finds x p (fun r => ∃ r', r = s ++ r' ∧ F r') := by
  obtain ⟨l, h1, h2⟩ := h
  refine ⟨l, h1, fun q => ?_⟩
  rw [h2]
  constructor
  · rintro ⟨r, rfl, h⟩
    exact ⟨s ++ r, by simp, r, rfl, h⟩
  · rintro ⟨_, rfl, r, rfl, h⟩
    exact ⟨r, by simp, h⟩

theorem finds_append {x y : PyM (List Path)} {p : Path} {F G : Path → Prop} (hx : Finds x p F) (hy : Finds y p G) :
    Finds (match (generalizing := false) x with | .error e => .error e | .ok l => match (generalizing := false) y with | .error e => .error e | .ok l' => .ok (l ++ l')) p
      (fun r => F r ∨ G r) := by
  obtain ⟨l, rfl, h2⟩ := hx
  obtain ⟨l', rfl, h4⟩ := hy
  refine ⟨_, rfl, fun q => ?_⟩
  rw [List.mem_append, h2, h4]
  constructor
  · rintro (⟨r, h, h'⟩ | ⟨r, h, h'⟩)
    · exact ⟨r, h, .inl h'⟩
    · exact ⟨r, h, .inr h'⟩
  · rintro ⟨r, h, h' | h'⟩
    · exact .inl ⟨r, h, h'⟩
    · exact .inr ⟨r, h, h'⟩

theorem finds_collect {α : Type} {f : α → PyM (List Path)} {as : List α} {p : Path} {F : α → Path → Prop}
    (h : ∀ a ∈ as, Finds (f a) p (F a)) : Finds (collectM f as) p (fun r => ∃ a ∈ as, F a r) := by
  obtain ⟨r, hr, h1⟩ := collectM_spec h
  refine ⟨r, hr, fun q => ?_⟩
  rw [h1]
  constructor
  · rintro ⟨a, ha, r, e, hf⟩
    exact ⟨r, e, a, ha, hf⟩
  · rintro ⟨r, e, a, ha, hf⟩
    exact ⟨a, ha, r, e, hf⟩

theorem finds_items {rec : Val → Path → PyM (List Path)} {xs : List Val} {p : Path} {G : Val → Path → Prop}
    (h : ∀ (i : Nat) x, xs[i]? = some x → Finds (rec x (p ++ [.int i])) (p ++ [.int i]) (G x)) :
    Finds (collectM (fun xi : Val × Nat => rec xi.1 (p ++ [.int xi.2])) xs.zipIdx) p
      (fun r => ∃ (i : Nat) (x : Val) (s : Path), xs[i]? = some x ∧ G x s ∧ r = .int i :: s) := by
  refine finds_congr (finds_collect (F := fun xi r => ∃ s, r = [.int xi.2] ++ s ∧ G xi.1 s) ?_) ?_
  · rintro ⟨x, i⟩ hxi
    exact finds_shift (h i x (mem_zip_iff.1 hxi))
  · intro r
    constructor
    · rintro ⟨⟨x, i⟩, hxi, s, e, hg⟩
      exact ⟨i, x, s, mem_zip_iff.1 hxi, hg, e⟩
    · rintro ⟨i, x, s, hxi, hg, e⟩
      exact ⟨(x, i), mem_zip_iff.2 hxi, s, e, hg⟩

end CfnLint
