import Verif.Lemmas.JsonSound
import Verif.Props.Json
/-
Property C55: the JSON decoder accepts only JSON.
-/
namespace CfnLint
open Spec

/-- Some properties of Python's `int(text, 16)`: it reads hexadecimal digits, and a sign before them. -/
def PythonHex (int16 : List Char → Option Int) : Prop :=
  ReadsHex int16 ∧ int16 "+abc".toList = some 0xabc

/-- The full C55 statement: whatever text the decoder accepts is a JSON document, and the value is the one
the document denotes. -/
def C55_statement : Prop :=
  ∀ (int16 : List Char → Option Int) (s : List Char) (v : JVal), PythonHex int16 → jsonLoads int16 s = .ok v →
    Document s v

/-- C55: apart from the words `NaN`, `Infinity`, `-Infinity` and loose hexadecimal escapes, a text that is
accepted is a JSON document denoting the value returned. -/
theorem C55_accepts_only_json_partial (int16 : List Char → Option Int) (s : List Char) (v : JVal)
    (hi : ReadsHex int16) (ho : OnlyHex int16) (h : jsonLoads int16 s = .ok v) (hf : Finite v) :
    Document s v := by
  unfold jsonLoads at h
  split at h
  · cases h
  · split at h
    · cases h
    · cases h
    · rename_i v' r hv
      split at h
      · rename_i hr
        cases h
        obtain ⟨s', h1, h2⟩ := (scan_sound hi ho _).1 _ _ _ hv hf
        obtain ⟨w, hw, hs⟩ := skipWs_split s
        obtain ⟨w', hw', hr'⟩ := skipWs_split r
        refine ⟨w, s', r, hw, ?_, h2, by rw [← h1]; exact hs⟩
        rw [hr', hr]
        simpa using hw'
      · cases h

/-- C34, C35 and C55 together: the decoder accepts exactly the JSON documents without duplicate keys and
null members, and returns the value they denote. -/
theorem C55_accepts_exactly_partial (int16 : List Char → Option Int) (s : List Char) (v : JVal)
    (hi : ReadsHex int16) (ho : OnlyHex int16) (hf : Finite v) :
    jsonLoads int16 s = .ok v ↔ Document s v ∧ ¬ DuplicateKey v ∧ ¬ NullMember v := by
  constructor
  · intro h
    exact ⟨C55_accepts_only_json_partial int16 s v hi ho h hf, C35_never_decodes int16 s v h⟩
  · rintro ⟨h1, h2, h3⟩
    exact C34_document_decodes int16 hi s v h1 h2 h3

/-- A JSON text denotes one value. -/
theorem C55_unambiguous (int16 : List Char → Option Int) (hi : ReadsHex int16) (s : List Char) (v w : JVal)
    (hv : Document s v) (hw : Document s w) (h1 : ¬ DuplicateKey v) (h2 : ¬ NullMember v)
    (h3 : ¬ DuplicateKey w) (h4 : ¬ NullMember w) : v = w := by
  have e1 := C34_document_decodes int16 hi s v hv h1 h2
  have e2 := C34_document_decodes int16 hi s w hw h3 h4
  rw [e1] at e2
  cases e2
  rfl

/-- Python's reading of hexadecimal numbers, as far as it is used here -/
def looseInt16 (h : List Char) : Option Int :=
  if h = "+abc".toList then some 0xabc else strictInt16 h

theorem pythonHex_loose : PythonHex looseInt16 := by
  refine ⟨?_, rfl⟩
  intro h u hh
  unfold looseInt16
  split
  · rename_i he
    subst he
    have := readsHex_strict _ u hh
    revert this
    simp [strictInt16, hexVal]
  · exact readsHex_strict h u hh

/-- what a text denotes, by decoding it -/
theorem document_value {s : List Char} {v v0 : JVal} (h : jsonLoads strictInt16 s = .ok v0)
    (hd : Document s v) : v = v0 := by
  by_cases hc : DuplicateKey v ∨ NullMember v
  · obtain ⟨m, hm⟩ := C35_document_rejected strictInt16 readsHex_strict s v hd hc
    rw [h] at hm
    cases hm
  · have := C34_document_decodes strictInt16 readsHex_strict s v hd (fun x => hc (.inl x)) (fun x => hc (.inr x))
    rw [h] at this
    cases this
    rfl

/-- C55 does not hold: `NaN` is accepted. -/
theorem C55_nan_violated : ¬ C55_statement := by
  intro h
  obtain ⟨w, s, w', hw, _, hg, he⟩ := h looseInt16 "NaN".toList (.flt "NaN".toList) pythonHex_loose
    (by simp [jsonLoads, skipWs, isJsonWs, scanOnce, scanAtom, dropWord, matchNumber, matchInteger])
  cases hg with
  | number hn =>
    obtain ⟨c, s', rfl, hc⟩ := number_head hn
    cases w with
    | nil =>
      have : c = 'N' := by simpa using (congrArg List.head? he).symm
      subst this
      revert hc
      decide
    | cons d w =>
      have : d = 'N' := by simpa using (congrArg List.head? he).symm
      subst this
      have := hw _ List.mem_cons_self
      revert this
      decide

theorem loose_escape : jsonLoads looseInt16 "\"\\u+abc\"".toList = .ok (.str [0xabc]) := by
  have hp : pairStep looseInt16 2748 ['"'] = .ok (2748, 0) := by rfl
  have hd : decodeU looseInt16 '+' 'a' 'b' 'c' = .ok 2748 := by rfl
  have h0 : scanString looseInt16 ['"'] = .ok ([], []) := by rw [scanString.eq_def]; rfl
  have h1 : scanString looseInt16 ['\\', 'u', '+', 'a', 'b', 'c', '"'] = .ok ([2748], []) := by
    rw [scanString.eq_def]
    simp [hd, hp, h0, consText]
  simp [jsonLoads, skipWs, isJsonWs, scanOnce, h1]

theorem strict_escape : jsonLoads strictInt16 "\"\\u+abc\"".toList = .error (.cfn "Invalid \\uXXXX escape") := by
  have hd : decodeU strictInt16 '+' 'a' 'b' 'c' = .error (.cfn "Invalid \\uXXXX escape") := by rfl
  have h1 : scanString strictInt16 ['\\', 'u', '+', 'a', 'b', 'c', '"'] = .error (.cfn "Invalid \\uXXXX escape") := by
    rw [scanString.eq_def]
    simp [hd]
  simp [jsonLoads, skipWs, isJsonWs, scanOnce, h1]

/-- C55 does not hold: an escape may hold a sign. -/
theorem C55_escape_violated : ¬ C55_statement := by
  intro h
  have hd := h looseInt16 "\"\\u+abc\"".toList (.str [0xabc]) pythonHex_loose loose_escape
  have := C34_document_decodes strictInt16 readsHex_strict _ _ hd
    (by rintro ⟨kvs, hi, _⟩; cases hi) (by rintro ⟨kvs, k, hi, _⟩; cases hi)
  rw [strict_escape] at this
  cases this

-- the hypotheses are met
theorem onlyHex_strict : OnlyHex strictInt16 := by
  have hv : ∀ c i, hexVal c = some i → ∃ n : Nat, i = n ∧ HexDigit c n := by
    intro c i h
    have hc : ∀ n : Nat, c.toNat = n → c = Char.ofNat n := by
      rintro n rfl
      exact (Char.ofNat_toNat c).symm
    unfold hexVal at h
    split at h
    · rename_i hh
      cases h
      have h1 : 48 ≤ c.toNat := hh.1
      have h2 : c.toNat ≤ 57 := hh.2
      refine ⟨c.toNat - 48, by omega, ?_⟩
      have h3 := HexDigit.dec (c.toNat - 48) (by omega)
      rwa [← hc (48 + (c.toNat - 48)) (by omega)] at h3
    split at h
    · rename_i hh
      cases h
      have h1 : 65 ≤ c.toNat := hh.1
      have h2 : c.toNat ≤ 70 := hh.2
      refine ⟨10 + (c.toNat - 65), by omega, ?_⟩
      have h3 := HexDigit.upper (c.toNat - 65) (by omega)
      rwa [← hc (65 + (c.toNat - 65)) (by omega)] at h3
    split at h
    · rename_i hh
      cases h
      have h1 : 97 ≤ c.toNat := hh.1
      have h2 : c.toNat ≤ 102 := hh.2
      refine ⟨10 + (c.toNat - 97), by omega, ?_⟩
      have h3 := HexDigit.lower (c.toNat - 97) (by omega)
      rwa [← hc (97 + (c.toNat - 97)) (by omega)] at h3
    · cases h
  intro h u hl hu
  match h, hl with
  | [a, b, c, d], _ =>
    simp only [strictInt16, bind, Option.bind_eq_some_iff, pure, Option.some.injEq] at hu
    obtain ⟨i, hi, j, hj, k, hk, l, hl, rfl⟩ := hu
    obtain ⟨i', rfl, hi'⟩ := hv _ _ hi
    obtain ⟨j', rfl, hj'⟩ := hv _ _ hj
    obtain ⟨k', rfl, hk'⟩ := hv _ _ hk
    obtain ⟨l', rfl, hl'⟩ := hv _ _ hl
    exact ⟨_, by push_cast; rfl, .mk hi' hj' hk' hl'⟩

example : Document " [1, 2.5] ".toList (.arr [.int 1, .flt "2.5".toList]) := by
  refine C55_accepts_only_json_partial strictInt16 _ _ readsHex_strict onlyHex_strict
    (by simp [jsonLoads, skipWs, isJsonWs, scanOnce, scanItems, scanAtom, dropWord, matchNumber, matchInteger,
      matchFrac, matchExp, digits, parseInt]) ?_
  intro t ht
  cases ht with
  | item hm ht =>
    simp only [List.mem_cons, List.not_mem_nil, or_false] at hm
    rcases hm with rfl | rfl
    · cases ht
    · cases ht
      decide

end CfnLint
