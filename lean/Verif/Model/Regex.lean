import Verif.Model.Py
/-
Regular expressions as used by the rules: REGEX_ALPHANUMERIC, REGEX_CIDR and REGEX_IPV4 (helpers.py:70-74), REGEX_DOMAINNAME,
REGEX_TXT and REGEX_CNAME_VALIDATIONS (rules/resources/route53/RecordSet.py:21-24). Only whether a text matches is modelled, not
the groups. `re.match` with `^…$` accepts a line break after the match.
-/
namespace CfnLint

/-- regular expressions -/
inductive Rx where
  | eps
  | set (p : Char → Bool)
  | seq (a b : Rx)
  | alt (a b : Rx)
  | star (a : Rx)

namespace Rx

/-- one character -/
def chr (c : Char) : Rx := .set (fun x => decide (x = c))
/-- `[a-b]` -/
def rng (a b : Char) : Rx := .set (fun x => decide (a ≤ x) && decide (x ≤ b))
/-- `[0-9]` -/
def dig : Rx := rng '0' '9'
/-- `a?` -/
def opt (a : Rx) : Rx := .alt a .eps
/-- `a{n}` -/
def times : Nat → Rx → Rx
  | 0, _ => .eps
  | n + 1, a => .seq a (times n a)
/-- `a{0,n}` -/
def atMost : Nat → Rx → Rx
  | 0, _ => .eps
  | n + 1, a => opt (.seq a (atMost n a))
/-- the characters of a text one after the other -/
def word : List Char → Rx
  | [] => .eps
  | c :: cs => .seq (chr c) (word cs)

/-- what is left after any number of matches of an expression, `f` being one match -/
def starRest (f : List Char → List (List Char)) : Nat → List Char → List (List Char)
  | 0, s => [s]
  | n + 1, s => s :: ((f s).filter (fun u => decide (u.length < s.length))).flatMap (starRest f n)

/-- what may be left of a text after a match at its front -/
def rest : Rx → List Char → List (List Char)
  | .eps, s => [s]
  | .set _, [] => []
  | .set p, c :: s => if p c then [s] else []
  | .seq a b, s => (a.rest s).flatMap b.rest
  | .alt a b, s => a.rest s ++ b.rest s
  | .star a, s => starRest a.rest s.length s

/-- `re.match('^r$', s)` -/
def matchesAll (r : Rx) (s : String) : Bool := (r.rest s.toList).any (fun u => u == [] || u == ['\n'])

end Rx

open Rx

/-- `[a-zA-Z0-9]` -/
def alnumRx : Rx := .alt (rng 'a' 'z') (.alt (rng 'A' 'Z') dig)

/-- REGEX_ALPHANUMERIC, helpers.py:70: `[a-zA-Z0-9]*` -/
def regexAlphanumeric : Rx := .star alnumRx

/-- `[0-9]|[1-9][0-9]|1[0-9]{2}|2[0-4][0-9]|25[0-5]` in helpers.py:72 -/
def octetRx : Rx :=
  .alt dig (.alt (.seq (rng '1' '9') dig) (.alt (.seq (chr '1') (times 2 dig)) (.alt (.seq (chr '2') (.seq (rng '0' '4') dig))
    (.seq (chr '2') (.seq (chr '5') (rng '0' '5'))))))

/-- `[0-9]|[1-2][0-9]|3[0-2]` in helpers.py:72 -/
def maskRx : Rx := .alt dig (.alt (.seq (rng '1' '2') dig) (.seq (chr '3') (rng '0' '2')))

/-- REGEX_CIDR, helpers.py:71-72 -/
def regexCidr : Rx := .seq (times 3 (.seq octetRx (chr '.'))) (.seq octetRx (.seq (chr '/') maskRx))

/-- `25[0-5]|2[0-4][0-9]|[01]?[0-9][0-9]?` in helpers.py:74 -/
def ipOctetRx : Rx :=
  .alt (.seq (chr '2') (.seq (chr '5') (rng '0' '5'))) (.alt (.seq (chr '2') (.seq (rng '0' '4') dig))
    (.seq (opt (rng '0' '1')) (.seq dig (opt dig))))

/-- REGEX_IPV4, helpers.py:73-74 -/
def regexIpv4 : Rx := .seq ipOctetRx (times 3 (.seq (chr '.') ipOctetRx))

/-- the characters of REGEX_DOMAINNAME, RecordSet.py:22; `\,-\/` is a range -/
def domainChar (c : Char) : Bool :=
  (decide ('a' ≤ c) && decide (c ≤ 'z')) || (decide ('A' ≤ c) && decide (c ≤ 'Z')) || (decide ('0' ≤ c) && decide (c ≤ '9')) ||
  (decide (',' ≤ c) && decide (c ≤ '/')) || "!\"#$%&'()*+:;<=>?@[\\]^_`{|}~.".toList.contains c

/-- REGEX_DOMAINNAME, RecordSet.py:21-22 -/
def regexDomain : Rx := .seq (.set domainChar) (.star (.set domainChar))

/-- `"[^"]{1,255}"` in RecordSet.py:23 -/
def txtItemRx : Rx :=
  .seq (chr '"') (.seq (.seq (.set (fun c => decide (c ≠ '"'))) (atMost 254 (.set (fun c => decide (c ≠ '"'))))) (chr '"'))

/-- REGEX_TXT, RecordSet.py:23 -/
def regexTxt : Rx := .seq (.star (.seq txtItemRx (.star (chr ' ')))) txtItemRx

/-- REGEX_CNAME_VALIDATIONS, RecordSet.py:24 -/
def regexCname : Rx :=
  .seq (.star (.set (fun c => decide (c ≠ '\n')))) (.seq (word ".acm-validations.aws".toList) (opt (chr '.')))

end CfnLint
