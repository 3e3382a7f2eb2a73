import Verif.Props.Json
/-
The JSON grammar of Spec/Json is unambiguous: a text denotes at most one value. Shown by a reader of the grammar that,
unlike the decoder of cfn-lint, accepts null members and duplicate keys.
-/
namespace CfnLint
open Spec

mutual
def readOnce (int16 : List Char → Option Int) : Nat → List Char → Option (JVal × List Char)
  | 0, _ => none
  | n + 1, s =>
    match s with
    | [] => none
    | c :: r =>
      if c = '"' then
        match scanString int16 r with
        | .ok (t, r') => some (.str t, r')
        | .error _ => none
      else if c = '{' then
        match skipWs r with
        | [] => none
        | d :: r' =>
          if d = '}' then some (.obj [], r')
          else
            match readMembers int16 n r' with
            | some (pairs, r'') => some (.obj pairs, r'')
            | none => none
      else if c = '[' then
        match skipWs r with
        | [] => none
        | d :: r' =>
          if d = ']' then some (.arr [], r')
          else match readItems int16 n (d :: r') with
            | some (vs, r'') => some (.arr vs, r'')
            | none => none
      else
        match scanAtom s with
        | .ok p => some p
        | .error _ => none

def readItems (int16 : List Char → Option Int) : Nat → List Char → Option (List JVal × List Char)
  | 0, _ => none
  | n + 1, s =>
    match readOnce int16 n s with
    | none => none
    | some (v, r) =>
      match skipWs r with
      | [] => none
      | d :: r' =>
        if d = ']' then some ([v], r')
        else
          match readItems int16 n (skipWs r') with
          | some (vs, r'') => some (v :: vs, r'')
          | none => none

def readMembers (int16 : List Char → Option Int) : Nat → List Char → Option (List (JText × JVal) × List Char)
  | 0, _ => none
  | n + 1, s =>
    match scanString int16 s with
    | .error _ => none
    | .ok (k, r) =>
      match skipWs r with
      | [] => none
      | _ :: r1 =>
        match readOnce int16 n (skipWs r1) with
        | none => none
        | some (v, r2) =>
          match skipWs r2 with
          | [] => none
          | d :: r3 =>
            if d = '}' then some ([(k, v)], r3)
            else
              match skipWs r3 with
              | [] => none
              | _ :: r4 =>
                match readMembers int16 n r4 with
                | some (kvs, r5) => some ((k, v) :: kvs, r5)
                | none => none
end

/-- what reading a piece of grammatical text gives -/
def ReadSpec (int16 : List Char → Option Int) (s : List Char) : Node → Prop
  | .value v => ∀ n r, 2 * s.length + 1 ≤ n → Ends r → readOnce int16 n (s ++ r) = some (v, r)
  | .items vs => ∀ n r, 2 * s.length + 2 ≤ n → ∃ c s', skipWs (s ++ ']' :: r) = c :: s' ∧ c ≠ ']' ∧
      readItems int16 n (c :: s') = some (vs, r)
  | .members kvs => ∀ n r, 2 * s.length + 2 ≤ n → ∃ s', skipWs (s ++ '}' :: r) = '"' :: s' ∧
      readMembers int16 n s' = some (kvs, r)

theorem read_gram {int16 : List Char → Option Int} (hi : ReadsHex int16) {s : List Char} {nd : Node}
    (h : Gram s nd) : ReadSpec int16 s nd := by
  induction h with
  | null =>
    intro n r hn _
    obtain ⟨n, rfl⟩ : ∃ k, n = k + 1 := ⟨n - 1, by simp at hn; omega⟩
    simp [readOnce, scanAtom, dropWord, List.isPrefixOf]
  | true =>
    intro n r hn _
    obtain ⟨n, rfl⟩ : ∃ k, n = k + 1 := ⟨n - 1, by simp at hn; omega⟩
    simp [readOnce, scanAtom, dropWord, List.isPrefixOf]
  | false =>
    intro n r hn _
    obtain ⟨n, rfl⟩ : ∃ k, n = k + 1 := ⟨n - 1, by simp at hn; omega⟩
    simp [readOnce, scanAtom, dropWord, List.isPrefixOf]
  | @number s v hnum =>
    intro n r hn hr
    obtain ⟨n, rfl⟩ : ∃ k, n = k + 1 := ⟨n - 1, by omega⟩
    have ha := scanAtom_number hnum hr
    obtain ⟨c, s', rfl, hc⟩ := number_head hnum
    rw [List.cons_append] at ha ⊢
    unfold readOnce
    dsimp only
    rw [if_neg (numChar_ne hc _ (by decide) (by decide)),
      if_neg (numChar_ne hc _ (by decide) (by decide)),
      if_neg (numChar_ne hc _ (by decide) (by decide)), ha]
  | @string s t hs =>
    intro n r hn _
    obtain ⟨n, rfl⟩ : ∃ k, n = k + 1 := ⟨n - 1, by omega⟩
    rw [List.cons_append, List.append_assoc, List.singleton_append]
    unfold readOnce
    dsimp only
    rw [if_pos rfl, scanString_chars hi hs r]
  | @emptyArr w hw =>
    intro n r hn _
    obtain ⟨n, rfl⟩ : ∃ k, n = k + 1 := ⟨n - 1, by omega⟩
    rw [List.cons_append, List.append_assoc, List.singleton_append]
    unfold readOnce
    dsimp only
    rw [if_neg (by decide), if_neg (by decide), if_pos rfl, skipWs_blank hw, skipWs_cons (by decide)]
    rfl
  | @arr s vs _ ih =>
    intro n r hn _
    obtain ⟨n, rfl⟩ : ∃ k, n = k + 1 := ⟨n - 1, by omega⟩
    obtain ⟨c, s', hsk, hc, hg⟩ := ih n r (by simp at hn; omega)
    rw [List.cons_append, List.append_assoc, List.singleton_append]
    unfold readOnce
    dsimp only
    rw [if_neg (by decide), if_neg (by decide), if_pos rfl, hsk]
    dsimp only
    rw [if_neg hc, hg]
  | @emptyObj w hw =>
    intro n r hn _
    obtain ⟨n, rfl⟩ : ∃ k, n = k + 1 := ⟨n - 1, by omega⟩
    rw [List.cons_append, List.append_assoc, List.singleton_append]
    unfold readOnce
    dsimp only
    rw [if_neg (by decide), if_pos rfl, skipWs_blank hw, skipWs_cons (by decide)]
    rfl
  | @obj s kvs _ ih =>
    intro n r hn _
    obtain ⟨n, rfl⟩ : ∃ k, n = k + 1 := ⟨n - 1, by omega⟩
    obtain ⟨s', hsk, hg⟩ := ih n r (by simp at hn; omega)
    rw [List.cons_append, List.append_assoc, List.singleton_append]
    unfold readOnce
    dsimp only
    rw [if_neg (by decide), if_pos rfl, hsk]
    dsimp only
    rw [if_neg (by decide), hg]
  | @item w s w' v hw hv hw' ih =>
    intro n r hn
    obtain ⟨n, rfl⟩ : ∃ k, n = k + 1 := ⟨n - 1, by omega⟩
    obtain ⟨c, s', rfl, hws, hc, _⟩ := gram_value_head hv
    have ih := ih n (w' ++ ']' :: r) (by simp at hn ⊢; omega) (ends_blank hw' (ends_cons _ (by simp)))
    refine ⟨c, s' ++ (w' ++ ']' :: r), ?_, hc, ?_⟩
    · simp only [List.append_assoc, List.cons_append]
      rw [skipWs_blank hw, skipWs_cons hws]
    · rw [List.cons_append] at ih
      unfold readItems
      rw [ih]
      dsimp only
      rw [skipWs_blank hw', skipWs_cons (by decide)]
      rfl
  | @items w s w' v r0 vs hw hv hw' _ ih ih2 =>
    intro n r hn
    obtain ⟨n, rfl⟩ : ∃ k, n = k + 1 := ⟨n - 1, by omega⟩
    obtain ⟨c, s', rfl, hws, hc, _⟩ := gram_value_head hv
    have ih := ih n (w' ++ ',' :: (r0 ++ ']' :: r)) (by simp at hn ⊢; omega)
      (ends_blank hw' (ends_cons _ (by simp)))
    obtain ⟨c2, s2, hsk, _, hg⟩ := ih2 n r (by simp at hn ⊢; omega)
    refine ⟨c, s' ++ (w' ++ ',' :: (r0 ++ ']' :: r)), ?_, hc, ?_⟩
    · simp only [List.append_assoc, List.cons_append]
      rw [skipWs_blank hw, skipWs_cons hws]
    · rw [List.cons_append] at ih
      unfold readItems
      rw [ih]
      dsimp only
      rw [skipWs_blank hw', skipWs_cons (by decide)]
      dsimp only
      rw [if_neg (by decide), hsk, hg]
  | @member w k t w1 w2 s v w3 hw hk hw1 hw2 hv hw3 ih =>
    intro n r hn
    obtain ⟨n, rfl⟩ : ∃ k, n = k + 1 := ⟨n - 1, by omega⟩
    obtain ⟨c, s', rfl, hws, hc, _⟩ := gram_value_head hv
    have ih := ih n (w3 ++ '}' :: r) (by simp at hn ⊢; omega) (ends_blank hw3 (ends_cons _ (by simp)))
    rw [List.cons_append] at ih
    refine ⟨k ++ '"' :: (w1 ++ ':' :: (w2 ++ (c :: s' ++ (w3 ++ '}' :: r)))), ?_, ?_⟩
    · simp only [List.append_assoc, List.cons_append]
      rw [skipWs_blank hw, skipWs_cons (by decide)]
    · unfold readMembers
      rw [scanString_chars hi hk]
      dsimp only
      rw [skipWs_blank hw1, skipWs_cons (by decide)]
      dsimp only
      rw [skipWs_blank hw2, List.cons_append, skipWs_cons hws, ih]
      dsimp only
      rw [skipWs_blank hw3, skipWs_cons (by decide)]
      rfl
  | @members w k t w1 w2 s v w3 r0 kvs hw hk hw1 hw2 hv hw3 _ ih ih2 =>
    intro n r hn
    obtain ⟨n, rfl⟩ : ∃ k, n = k + 1 := ⟨n - 1, by omega⟩
    obtain ⟨c, s', rfl, hws, hc, _⟩ := gram_value_head hv
    have ih := ih n (w3 ++ ',' :: (r0 ++ '}' :: r)) (by simp at hn ⊢; omega)
      (ends_blank hw3 (ends_cons _ (by simp)))
    rw [List.cons_append] at ih
    obtain ⟨s2, hsk, hg⟩ := ih2 n r (by simp at hn ⊢; omega)
    refine ⟨k ++ '"' :: (w1 ++ ':' :: (w2 ++ (c :: s' ++ (w3 ++ ',' :: (r0 ++ '}' :: r))))), ?_, ?_⟩
    · simp only [List.append_assoc, List.cons_append]
      rw [skipWs_blank hw, skipWs_cons (by decide)]
    · unfold readMembers
      rw [scanString_chars hi hk]
      dsimp only
      rw [skipWs_blank hw1, skipWs_cons (by decide)]
      dsimp only
      rw [skipWs_blank hw2, List.cons_append, skipWs_cons hws, ih]
      dsimp only
      rw [skipWs_blank hw3, skipWs_cons (by decide)]
      dsimp only
      rw [if_neg (by decide), hsk]
      dsimp only
      rw [hg]

/-- A JSON text denotes one value. -/
theorem document_unique {s : List Char} {v v' : JVal} (h : Document s v) (h' : Document s v') : v = v' := by
  have key : ∀ {v : JVal}, Document s v → readOnce strictInt16 (2 * s.length + 1) (skipWs s) =
      some (v, (readOnce strictInt16 (2 * s.length + 1) (skipWs s)).get!.2) := by
    intro v hd
    obtain ⟨w, t, w', hw, hw', hg, rfl⟩ := hd
    have hs := read_gram readsHex_strict hg
    obtain ⟨c, t', rfl, hws, _⟩ := gram_value_head hg
    have hends : Ends w' := by simpa using ends_blank hw' (r := []) (by intro c hc; simp at hc)
    have := hs (2 * (w ++ (c :: t' ++ w')).length + 1) w' (by simp; omega) hends
    rw [List.cons_append] at this
    rw [skipWs_blank hw, List.cons_append, skipWs_cons hws]
    rw [this]
    rfl
  have h1 := key h
  rw [key h'] at h1
  simpa using h1.symm

end CfnLint
