# Design: a Lean 4 model of cfn-python-lint 0.44.5

## Approach

The Python code under `/repo/src/cfnlint` is modelled function by function as shallow Lean definitions
(`lean/Verif/Model/*.lean`, one Lean file per Python module, each definition citing the Python lines).
Python exceptions are values (`Except PyErr α`); nothing is totalised silently.  Python data is the
inductive type `Val` (none, bool, int, float-as-opaque-text, str, list, dict with insertion order).
Specifications live in `lean/Verif/Spec/*.lean` and do not mention model helpers; property theorems live in
`lean/Verif/Props/*.lean`; auxiliary lemmas in `lean/Verif/Lemmas/*.lean`.

When the code violates a property, the negation is proved on a concrete witness (theorem name ends in
`_violated`), the strongest true restriction is proved under a name ending in `_partial`, and the
disagreement is listed in the section "Disagreements between code and property" below.

## Trusted base

* Lean 4.33 kernel; axioms `propext`, `Classical.choice`, `Quot.sound` only (no own axioms, no `sorry`,
  no `native_decide`, no `bv_decide`).
* The hand translation from Python to Lean (this is what a reader must check; every definition cites lines).
* Externals are parameters, constrained only by the hypotheses written in the theorems:
  `hashlib.sha1(json.dumps(..))` (a function `H : Val → String`), `glob.glob`, `re` where not modelled,
  PyYAML scanning/composition (the model starts at the node tree), networkx cycle search, the SAM translator,
  `jsonschema`, the file system and HTTP server.
* Python's recursion limit is modelled by explicit fuel only where recursion is not structural
  (named conditions); everywhere else recursion is structural on the value.

## Not modelled

Logging, CLI help/argparse internals, plugin discovery, the data files of resource specifications
(specifications are parameters), date/time values of YAML, Python 2 branches, float arithmetic.

## Plan per property

* **C01 Rule enablement decision** - `isEnabled` mirrors the three loops of is_enabled; spec is a first-order formula over prefixes. Decision logic, proved for all lists.
* **C02 Active rule set after any history** - Collection as a state machine (`register`/`extend`/`configure`), invariant by induction over the operation list.
* **C03 Warnings and errors are on by default, informational rules are opt-in** - Corollary of C01+C02 with the "W","E" extension loop of configure modelled.
* **C04 Rule options come only from the current template's configuration** - Rules carry their mutable option map; `__register` modelled with its "only when listed" configure. The claim is false: negation by a two-template witness; partial theorem for rules listed in every configuration.
* **C05 A crashing rule does not hide other rules' findings** - `run_check` returns `Option (List Match)` (None when E0002 disabled); extend(None) is a TypeError. Isolation proved when E0002 enabled; negation witness otherwise.
* **C06 Reported findings are unique, in order and complete up to equality** - The filter loop of Runner.run as a fold; invariant by induction.
* **C07 Directives suppress exactly the findings in their scope** - Same loop; coverage predicate; iff theorem for membership up to equality.
* **C08 A directive on one resource never hides a finding on another** - False for shared lines: witness. Partial: when lines of the finding are strictly outside the resource lines.
* **C09 Exit code encodes exactly the severities present** - `getExitCode` fold with bit-or; iff per bit, closed form, permutation invariance.
* **C10 Final report is sorted and loses nothing** - Stable merge sort model, permutation + sortedness + stability.
* **C11 An engine failure is never reported as a clean template** - run_checks with exceptions as values: code swallows them. Negation with witness + partial (no exception -> findings returned).
* **C12 Unsupported regions abort before any check** - Decision logic of run_checks.
* **C13 Transform errors short-circuit** - Decision logic of run_checks/transform with transform outcome as parameter.
* **C14 Parse errors of a template depend only on that template and the global configuration** - State machine over get_template_rules calls with args.template_args as state. Claim false: witness; partial for templates without the relevant Metadata.
* **C15 Configuration precedence** - `getArgumentValue` decision logic.
* **C16 Templates cannot weaken mandatory checks** - Composition C01+C15+C17+C07.
* **C17 Template Metadata can only set whitelisted, well-typed options** - `setTemplateArgs` on arbitrary values, exceptions as values.
* **C18 Project configuration overrides user configuration** - `mergeConfig` recursion on values; path lookup characterisation, idempotence.
* **C19 Rule option strings parse as written** - `parseRuleConfiguration` over strings as character lists with a split model; round trip.
* **C20 Template selection** - `templates` with glob as a function parameter.
* **C21 Scenario shape** - `getScenarios` model; shape by induction.
* **C22 Scenario completeness** - Spec = inductive evaluation relation on raw condition values; completeness for one-sided Equals (function vs literal). Full claim false (two-function Equals; more than four unrelated conditions; literal Equals): witnesses.
* **C23 Scenario soundness** - As C22 in the other direction.
* **C24 Condition evaluation agrees with CloudFormation semantics** - Refinement of the inductive relation by `Condition.process_condition`/`test`.
* **C25 Loading conditions never fails** - Totality of `Conditions.__init__` by construction of Except catch; get_scenarios can raise: witness.
* **C26 Scenarios do not depend on hash ordering** - Set enumeration order is a parameter (a permutation); consequence of C22/C23 style characterisation.
* **C27 Deep key search is exact** - `searchDeepKeys` by mutual structural recursion; iff with path lookup, no duplicates.
* **C28 Reported locations are the most specific available** - Marked values (`MVal`), `getLocationYaml` with exceptions as values.
* **C29 Conditional values carry correct paths** - `getConditionValues`, `getValues`.
* **C30 items_safe enumerates exactly the reachable objects** - `itemsSafe`, `getSafe`, `clean`.
* **C31 Resource availability** - `isResourceAvailable`; claim false when the path already fixes the condition to False: witness; exact characterisation as partial.
* **C32 Scenario projection of a value is consistent** - `getValueFromScenario`, `getObjectWithoutNestedConditions`.
* **C33 Reference existence check is exact** - `getValidRefs` with prefix-regex semantics; claim false (prefix match): witness; partial.
* **C34 JSON templates decode to what they say** - Character-level decoder (scanstring, object, array, numbers) with fuel = input length; round trip against a serializer.
* **C35 JSON duplicates and nulls are rejected** - Invariant of decoder output.
* **C36 YAML duplicates and nulls are rejected, short-form tags equal long form** - Constructor over YAML node trees (PyYAML compose is external).
* **C37 Decoding is total** - decode() with oracle outcomes for the two loaders.
* **C38 Specification overrides merge correctly** - `mergeSpec`, `setSpecs`.
* **C39 Node conversion preserves values** - `convertDict` on marked values.
* **C40 Circular dependency detection** - Graph edges; networkx cycle search as oracle specified by its contract.
* **C41 Local code URI replacement** - `replaceLocalCodeuri` on values.
* **C42 Machine-readable output is faithful** - Formatters on strings as character lists.
* **C43 Spec update is crash safe** - Crash model: sequence of file system effects, state after any prefix. Claim false (metadata saved first): witness; partial.
* **C44 Every typed property object is visited** - Traversal by recursion over values; visited-set characterisation as inductive relation.
* **C45 Limit checks have exact boundaries** - Limits over values; the float threshold computed as IEEE double arithmetic does.
* **C46 Pretty output lists every finding** - `groupByFile`/`byLevel` as lists; permutation of the findings.
* **C47 JUnit output reports every finding** - test cases as data, findings whose rule is not listed are lost: witness.
* **C48 Limits stated in bytes are measured in bytes** - UTF-8 length against `len`; false: witness; exact for ASCII text.
* **C49 The attribute reference check is exact** - attribute tables and the prefix tests of `get_valid_getatts`; exact for plain specifications, witnesses otherwise.
* **C50 Listed rules are the rules that run** - both collections reduced to the specified enablement; false: witnesses; exact conditions for agreement.
* **C51 Status 0 means clean** - relation between templates and findings over the loop of `main`, then C09; false: four witnesses.
* **C52 Every property value gets the check for its kind** - trace of calls for symbolic checks on top of C29; false for Fn::Transform and null branches.
* **C53 Unused conditions are exactly reported** - uses as paths in the template, deep search through C27; false for malformed uses.
* **C54 Undefined conditions are reported where they are used** - same uses; fold of a dictionary, names exact; places false in two ways.
* **C55 The JSON decoder accepts only JSON** - converse of C34: induction over the scanner, splitting the consumed text along the grammar; false for NaN and loose escapes.
* **C56 Variables of Fn::Sub are found exactly** - the lazy match and the scan are functions on characters; a grammar of well-formed texts is the specification; induction on the grammar.
* **C57 Unused parameters are reported exactly** - the search of C27 gives the uses; the texts are read with C56.
* **C58 Unused mappings are reported exactly** - the search of C27 gives the calls; induction on the list of calls.
* **C59 Superfluous Fn::Sub and superfluous variables are reported exactly** - the search of C27 gives the calls; the texts are read with C56.
* **C60 Missing required properties are reported exactly** - leaves of nested Fn::If (C43/C44) characterise items_safe; the required names are compared with the keys of the leaf
* **C61 Groups of which at least one or exactly one property is needed** - sets of get_object_without_conditions are described by HasProp under the scenario; C21-C23 give the scenarios of a deployment
* **C62 Properties that exclude or require one another** - same description of the sets, with the keys after cleaning
* **C63 References to resources that may not exist** - Reduce to C31 (availability of a resource at a path) at every place the search of C27 finds.
* **C64 Values of DependsOn** - The conditions on the path to DependsOn are those of the resource; then C31.
* **C65 Superfluous dependencies** - Search of C27 restricted to the resource; induction over resources and values.
* **C66 Lookup of references** - Characterise the keys that match a name (prefixes), take the longest; the last insertion of a key wins.
* **C67 Grammar of conditions** - Exact lists of findings per rule from the search for keys (C27); the grammar by induction over conditions.
* **C68 Accepted conditions have a truth value** - Induction over a rank of the names, inside over the grammar; E8002 (C54) gives that names are defined.
* **C69 Rules on mappings report exactly the faults** - Model the three rules over the search for keys; exactness by the position relation At
* **C70 Accepted Fn::FindInMap calls find a value** - Compose the three exactness theorems
* **C71 Faults of Fn::Sub are reported exactly** - Table of attributes by induction over the resources, then the check of one name, then the calls
* **C72 Faults in the form of function calls are reported exactly** - One lemma for the loop over the found calls; then the check of one argument is compared with the form in the specification, numerals included.
* **C73 Faults of Fn::Join are reported exactly** - The answers of the two lookups (parameter types, table of attributes) are compared with the specification; then the elements, the list, the call.
* **C74 Texts of addresses and records are recognised exactly** - A small syntax of regular expressions with a function computing every remainder after a match; soundness and completeness against an inductive language, the repetition by fuel equal to the length of the text; each expression is then unfolded into its description, finite digit groups by kernel evaluation.
* **C75 Fn::Cidr is checked exactly** - Per-call exactness lifted through the deep search (callRule_iff) plus exactness of the parameter check lifted through collectM; the block goes through the theorem on REGEX_CIDR.
* **C76 Properties of resources are selected completely and at the right places** - Induction on the recursion with the specification of leaves of conditions (Leaf), over the values visited on the way.
* **C77 Records of a domain are checked by their type** - Model the checks for each type on top of the regular expressions of C74; characterise each by the form of the text; lift through check_value (checkValue_only) and the selection of properties (C76).
* **C78 Properties of resources are those the specification declares** - Model propertycheck with a recursion budget; specify the faults as an inductive predicate over what is expected at a place; prove the findings equal to the faults by induction on the budget.
* **C79 Variables outside of Fn::Sub are reported exactly** - Model the scan of the regular expression and the walk over the template; show that occurrences of variables cannot overlap, so the scan finds all; characterise the skipped places independently.
* **C80 Values of properties have the declared primitive types** - Model the checks of one value, of a map and of an object; characterise each by what fits a type; the loop over properties by a general lemma on declared properties and check_value.
* **C81 Values of properties are among those allowed** - Model the check of one value for each rule and the loop over the objects a value may be; one general lemma reduces the four rules to the check of one value.
* **C82 The number of elements of a list is checked in each deployment** - The lists of a scenario are related to the lists under truth values that agree with it by induction over the value; the scenarios cover the deployments by C22.
* **C83 Equal elements of lists are reported** - Sorting the keys decides equality of JSON texts (induction over values; sorted lists with the same entries are equal); the loop over the elements is characterised by an invariant.
* **C84 Policies of resources** - membership lemma for get_resources, then case analysis on the value of the policy
* **C85 Secret parameters in metadata** - exact membership for the two searches, by mem_searchVal; counterexample by evaluation in the kernel
* **C86 Defaults of parameters** - exact characterisation of the six checks, then comparison with the documented constraints
* **C87 One route table for each subnet** - Exact description of the reports (C87_exact) by induction on the value of SubnetId; soundness without Fn::If, completeness for a single condition, and the two kinds of wrong answers.
* **C88 Schedule expressions** - Exact description of each message by the pieces of the text between the parentheses (C88_exact), no valid expression reported (C88_sound), what remains unreported (C88_complete_partial), and the rule on a whole property (C88_rule).
* **C89 Actions of pipelines (E2541)** - specification of each check of an action, then induction over the actions of a stage and over the stages with the sets of names as invariant
* **C90 Documentation of the rules** - lemmas on the division of a text into lines, then the kept part is the text up to the first heading
* **C91 More than five targets of an event rule** - Model check_value as a step on the counts. By induction over the calls the counts tell how many of the paths so far have each name (Tally); the names of different rules and branches differ. Then more than five paths in a branch are the same as a finding. The full statement fails: the branches of conditions within the list are counted together.
* **C92 Faults of policy documents** - Faults are stated by leaves of conditions (Leaf) and entries that are not removed (Kept). Exactness goes up from statements over entries and documents to the resource, with the exactness of items_safe and check_value. The statement in full fails: for unknown keys the path of the document comes twice, and lists of statements that depend on a condition raise; the check of a document ends without an exception exactly if there are none.
* **C93 Properties required or unwanted because of another value** - What a scenario makes of a value is related in both directions to the branch that agreeing truth values choose; the entries of the object of a scenario are characterised; soundness and completeness follow from the sets of C61 and the scenarios of C22.
* **C94 The serverless transformation and its failures** - The translator is an arbitrary function; case analysis of the outcome, joined with C13 for the run of the rules.
* **C95 The rule on pipeline stages reports exactly the faults of the stages deployed** - Lists of stages described by their names and categories (Forall2); each check is an induction over the list with the index generalised; the faults are an inductive relation independent of the checks, shown to be empty exactly for good pipelines; scenarios by the projection of C32.
* **C96 The rule on table attributes compares what each deployment defines with what its keys use** - Lists under conditions: what a scenario that settles the conditions makes of a list is the list of what its elements are (induction on the list and the nesting of Fn::If); the sets of names follow by membership; completeness for deployments from the scenarios of C46 and C60.
* **C97 Where the JSON decoder says things stand** - The decoder is modelled a second time with the document at hand; erasing marks and positions gives the first decoder back (refinement, by induction on the counter). A grammar with marks (text before, text, value with marks) is written independently with rows and columns of the preceding text, and soundness is proved by induction.
* **C98 Which configuration files count and what they may hold** - Model of the file search, reading, the schema as a checker and loading; the checker is shown equivalent to a declarative description of accepted files, merging is shown to preserve acceptance by an induction-free entrywise invariant, and the loaded result is characterised by the files alone.
* **C99 List options of the command line** - Model of the split and of the extending action with the default object kept in the parser; the value is shown to be the concatenation of uniquely determined comma pieces, and combined with C01 for the rules that result.
* **C100 Names of record sets and their zones** - Relate texts of a property set with what truth values choose (general lemma over the sets of get_object_without_conditions), then characterise the comparison of names on character lists.
* **C101 Secure parameters stand only where they may** - Characterise the regular expression with the derived language lemmas, then a general lemma on check_value with any checks; the faults are an inductive relation on property values.
* **C102 Actions of policies exist** - Invariant of the fold that reads the table of services; patterns as an inductive relation, splitting at the first star; then the documents as for C92.
* **C103 References have the types that properties take** - The path test is shown to decide whether a value is the whole list, by induction on the conditions passed; each check is then exact at its place, and the traversal of declared properties lifts this to the rule.
* **C104 Listeners and load balancers** - Each check is shown exact for one object; an induction over the scenarios, which carries the path that is changed on the way, lifts this to the load balancer, and the exactness of get_resource_properties to the listeners of the template.
* **C105 Resources that have a schema of their own** - The search for words is shown to be one for infixes (C105_syntax). collectM_spec gives the findings of the rule (C105_exact_partial). The list of schemas after n templates is n copies of the new ones; findings that repeat earlier ones leave the report as it is (C105_repeated, by induction over runnerFilter), which gives C105_report. C105_violated: a property named ConditionKey.
* **C106 The size of JSON documents** - The text is shown to be JSON for the value by recursion over the value (C106_text). The scan for placeholders is described by lines (C106_lines, by induction on the length of the text), the replacement by a relation (C106_measured, in both directions). The measured text is no longer than the document (C106_not_longer), which gives C106_sound. C106_exact_partial is for properties without conditions, C106_scenarios for those with conditions. C106_violated: a text between two placeholders.
* **C107 The interface of a template and names of its own** - The interface is found by two lookups (interface_cases relates paths of the template to paths of the interface); collectM_spec over the indexed groups gives the findings. Templates with empty sections raise (C107_null_raises, C107_groups_raise).
* **C108 Definitions of state machines** - The two tables of the code are shown equal to one table of the specification; the first missing key is the only one; a general lemma on check_value with several checks gives the places.
* **C109 Runtimes that are not supported** - A lemma on check_value with checks for values and references reduces the rules to one value; the table lookup and the two kinds of values of parameters are then exact; the order of dates is linear arithmetic.
* **C110 Zones that are written down, and references to resources with paths** - The lemmas on check_value of C109; for references the table of resources is unique, so that the lookups are memberships.
* **C111 Versions of policies** - items_safe of a document that is no call is the document without the entries that are no value; the two nested calls give it once.
* **C112 Passwords are no texts and not shown** - The two regular expressions are given their languages (a line with a part of a kind). The trees found are characterised by search_deep_keys (Lemmas/Search), the references by C66.
* **C113 Aliases of distributions and essential containers** - The regular expression is given its language as a list of parts between dots; the resources are found by oneKeyProps (C104); the second formatting of the message is modelled.
* **C114 Devices, sources of security groups and domains for validation are judged exactly** - Characterise each check by collectM_spec over the devices, rules and options; the regular expression by its language; the values of types by getValues_spec; give counterexamples for AWS::NoValue.
* **C115 Modules, serverless resources, packages, log filters and memory parameters are judged exactly** - collectM_spec over resources; deep search by mem_searchVal; the groups of filters by an invariant of the accumulated table, with equality of json texts reduced to equality of JSON values by the determinism of the grammar; check_value by checkValue_given.
* **C116 References, joins, mapping keys and sections** - Exact characterisations over the deep search; the wish that only functions are reported is refuted with a resource and a parameter called Ref; error theorems for empty joins and mappings that are no dictionaries.
* **C117 Classes of databases and failover of clusters** - E3025 by collectM over resources of the type with the leaves of get_safe; E3026 by the projection of properties under scenarios (C90) and path conditions (C91)
* **C118 Outputs** - collectM over the outputs; the paths of search_deep_keys by KeyAt (C116)
* **C119 Declarations of parameters and resources** - Case analysis on the tables of properties and attributes; the types of parameters are generated by an independent grammar, compared with the lists of the code by a finite check used inside a proof for all strings.
* **C120 Update policies** - One lemma on the loop over the choices of an object (items_safe), used for the policy and for its objects; the tables are compared with independent relations; values through the theorem on check_value.
* **C121 Values of parameters used for properties** - one use by cases on the section, the parameter and its type; the loop over choices and the one over values by their generic lemmas; Fn::If in the path excludes every choice but the object itself
* **C122 Names in the sections of a template** - induction on the entries of the section with C74_alphanumeric for the expression
* **C123 The rules that are loaded** - mutual induction on the tree of folders; the classes sorted by name are determined by the specification; the enumeration of the files by permutation
* **C124 The override file applies to every region and template alike, and a bad file ends the run** - Model/Override: override_specs and set_specs over all regions on top of Model/Specs, run once per template; Props/Override from C38_set_leaves, C38_set_idempotent and C38_merge_fails_iff.
* **C125 Every well formed condition is loaded, and the table of comparisons is exact** - Model/CondEquals: get_hash with its failure on mixed keys, _get_condition_equals and the whole constructor; Props/CondEquals by induction over the comparisons found, with C27_search_exact and C25_load_partial.
* **C126 Processing a downloaded specification** - Model/Patch: RFC 6902 add, remove and replace on objects, patch_spec, search_and_replace_botocore_types; Props/Patch by induction over the path, the list of patches and the value.
* **C127 From the rules' functions to the process status** - Model the matching decorator and RulesCollection.run over abstract rule behaviours; relate the checks made to an inductive description of the calls; compose with C05 (isolation), C06 (filter), C10 (sorting), C28 (places), C44 (traversal), C51 (status), C33 and C40 (single rules). Counterexamples: a rule that cannot be set up, a result without a place.
* **C128 Status 0 and the specification** - One JSON specification with views for the traversal and for the rows of the rules; the behaviours of the rules as bySpec; composition of C127_clean_partial, C44_complete_partial and the exactness of C60, C80 and C81.
* **C129 Status 0 and the names in a template** - Compose C127 (a rule in force found nothing when the status is 0) with the exactness theorems of the rules on names (C33, C49, C71, C54, C64, C40, C70, C68); a rule that failed otherwise than on an attribute of a template node would have left E0002.
* **C130 Status 0 and the form of the sections** - Chain the exactness theorems C116, C118, C119 and C122 with C127: a rule that fails on anything but an attribute of a text or a list leaves a failure, so silence of the rule on names excludes odd names, which the rule on resources needs, and so on. Conclude the hypotheses of C33 and C129 on the sections.
* **C131 Status 0 and the groups of properties** - Model/GroupRules sets the rules up with their tables, Lemmas/NoAttr shows that the removal of conditions never ends in the exception the runner swallows, C61, C62, C82 and C83 give what the checks report, C127 that they reported nothing; the shipped tables are finite and are checked by the kernel with the choices written out
* **C132 Status 0 means within the limits and everything used** - Invert each limit rule on the clean run (whole_silent: the rule ended with no match), from that read off the bounds entry by entry; for unused declarations compose C53, C57 and C58 with the clean run.
* **C133 Status 0 and properties that depend on the value of another** - The runner swallows only missing attributes; show that the check raises none when the resources are objects, so status 0 means that the check found nothing, and use the completeness of C93. The expressions of the shipped table are characterised through the language of regular expressions of C74; the one with a lookahead by induction on the text.
* **C134 Status 0 and the rules on particular resources** - compose the exact theorems of the rules (C84, C85, C87, C104, C113-C116, C120) with the theorem that a rule in force on a clean run found nothing (C127)
* **C135 Status 0 and the calls of functions** - From the run with status 0 a rule in force was silent on the template or failed on an attribute of a template node; the checks of calls never fail that way, so they were silent on every call, which is inverted case by case.
* **C136 Status 0 and the declarations** - Props/DeclsClosed: each rule on declarations is run inside the whole command (whole_silent / whole_found of Props/Closed); its own theorem turns its silence into the statement about the template. The statement fails where a rule raises the one error that is swallowed.
* **C137 Status 0 and the properties of particular types** - Composition of the theorem that status 0 leaves every call of a rule in force silent with the exact statements of the fifteen rules; where a rule may fail unnoticed it is shown that it does not on the shapes assumed.
* **C138 Status 0 and what properties use** - The exact characterisations of the rules (C121, C101, C106, C103) on the objects that the traversal finds (C44), joined with the run (C127); separate theorems relate the rows each rule reads to the JSON of the specification.
* **C139 Status 0 and the remaining rules of whole templates** - The exact theorems on the rules (C77, C78, C89, C95, C105, C112, C117) are put through the run of the command with the lemmas of C127 and C129; the rule on stages is modelled as a whole and shown to find the faults of all pipelines.
* **C140 Status 0 with the informational rules leaves room below every limit** - whole_silent and whole_found for the informational rules, joined with C132 for the errors; C84 for policies, C116 for joins, C83 for lists; refuted by a text parameter, at which I2012 stops without a finding
* **C141 Drawing the graph shows the dependencies and does not change the report** - graph with labels beside graphEdges; the membership lemmas of C40 per label; run_cli with and without the graph compared through lintAll; refuted by standard input (no file name, TypeError) and by a resource that is a text
* **C142 Copies and accessors keep the marks** - Structural induction over marked values; the loop of a copy is an invariant on the part already replaced.
* **C143 Update of the IAM policies** - Induction over the text for the split; paths through nested objects for what an assignment leaves alone.
* **C144 After status 0 no event rule of a template has more than five targets** - The state of the rule object is replayed from the template: C144_replay shows by induction over the resources that the calls with replayed counts are those of the rule that keeps them, C144_resources and C144_distinct that the calls are those on the event rules. With C91 and types_found status 0 bounds the targets in a branch (C144_branches) and in a deployment without calls (C144_targets_partial); C144_calls_violated refutes the full statement, as targets that are calls are not counted.
* **C145 Status 0 says exactly that no rule in force found anything** - Registering rules succeeds when enablement is decided and options can be set (induction over the rules, for a new and for a cached collection); the loop over the templates keeps an invariant of the state (Reach) and gives empty reports (C127_run has no other findings than those of calls); C145_exact joins both directions, C145_base discharges all hypotheses for E1001 on arbitrary templates.
* **C146 The updates of the regions by a pool of processes do not disturb one another** - transition system over the shared disk with one program counter per region; invariant that the remaining states of a process are a suffix of the states of its sequential update; a measure for termination
* **C147 For rules on the whole template, status 0 is the conjunction of what the rules ask** - C145 composed with the exact theorems on the rules (C72, C84, C115, C116, C118), each turned into an equivalence between silence and a statement on the template
* **C148 Updates of all regions one after the other** - Induction on the number of updates over C146, which gives one attempt of each region for each update, so that the theorems of C43 about sequences of attempts apply. The failing process has written nothing, and the step that fails sees the directory.
* **C149 Where sections are objects of objects, status 0 for twenty-five rules is spelt out** - As C147, relative to a kind of templates: each rule's exactness theorem has hypotheses on the shape of the template, which SectionsOrdinary implies; the eleven exactness theorems (C107, C116, C118, C119, C122) are turned into positive statements on the template.
* **C150 Status 0 spelt out for thirty-nine rules on ordinary templates** - Instance of C149_status with the kind Ordinary; the exactness theorems of C45, C67 and C69 give the fourteen rules, with the count of entries compared to arbitrary lists of distinct names.
* **C151 Status 0 spelt out for forty-five rules, names included** - Instance of C149_status with the kind LinkShape; the exactness theorems of C33, C40, C53, C54, C57 and C58 give the six rules.
* **C152 Every bit of the exit status is what the rules in force say** - Tally of each template from the run of the collection (C127) and the filter (C06), both directions; induction over the templates; bits from C51
* **C153 Every bit of the exit status when resources ask to ignore rules** - As C152 with the exact filter of C07 in place of the empty directives
* **C154 The exit status of several templates is the union of their exit statuses** - Bits of the run on the list and of the runs on single templates by C153; extensionality of numbers by bits
* **C155 The exit status depends on nothing but the rules in force and grows with them** - Monotonicity of the conditions of C153 in the rules in force; extensionality of numbers by bits
* **C156 A template is reported on as if it were linted alone** - Collections of the same rules and configuration have the same active rules; the run of a collection depends on nothing else; induction over the templates with an arbitrary reachable state
* **C157 Templates that cannot be decoded do not influence the others** - Induction over the list of templates: a template that cannot be decoded leaves the state as it was and yields its errors; the others are handled as in C156.

## Modelled parts

One entry per model file; the definitions cite the lines of the code.

* `Model/Aliases.lean` (13 definitions): Model of E3013 (rules/resources/cloudfront/Aliases.py) and of E3042 (rules/resources/ecs/TaskDefinitionEssentialContainer.py). A finding is its path with what was found. The message of E3013 is formatted twice, the second time with the alias in it (Aliases.py:39 and 44); whether that fails is modelled.
* `Model/BasedOn.lean` (9 definitions): Model of E3017 and E3018 (rules/resources/properties/BasedOnValue.py, RequiredBasedOnValue.py, UnwantedBasedOnValue.py). The regular expressions of the specification are predicates: `re.match` of a text.
* `Model/BasedTables.lean` (12 definitions): E3017 and E3018 as they are set up and called (rules/resources/properties/BasedOnValue.py, RequiredBasedOnValue.py, UnwantedBasedOnValue.py), around the check of Model/BasedOn, and the file data/AdditionalSpecs/BasedOnValue.json. Of `re.match` only whether it matches is modelled.
* `Model/CheckValue.lean` (16 definitions): Model of the dispatch of property values to the checks of a rule: `check_value` (template.py:527-582), `check_resource_property` (template.py:504-524), `get_resources` (template.py:63-81) and `camel_to_snake` (template.py:943-951). The checks are functions from a value and a path to findings of any type. The keyword arguments passed through to them, and the parameters and resources passed to `check_ref`, are not modelled.
* `Model/Cidr.lean` (10 definitions): Model of E1024 (rules/functions/Cidr.py:21-163). A finding is its path. `fltOk` stands for the comparison of a float with the bounds of a parameter. The order in which the collected parameters are looked at (a Python set) is taken to be that of the calls, with repetitions; only which findings there are is compared.
* `Model/CliLists.lean` (9 definitions): Model of the list options of the command line: `comma_separated_arg` (config.py:231-233) and `ExtendAction` (config.py:307-318) of `CliArgs.create_parser`. Simplification: argparse itself is not modelled. An option occurs some number of times, each time with one or more arguments (`nargs='+'`); argparse converts every argument with `type` and calls the action once for each occurrence. Before that it stores the default of the option, the very object, in the namespace.
* `Model/Clusters.lean` (25 definitions): Model of E3025 (rules/resources/rds/InstanceSize.py) and of E3026 (rules/resources/elasticache/CacheClusterFailover.py). A finding is its path with what it is about; the messages are not modelled.
* `Model/CondEquals.lean` (10 definitions): Model of the rest of `Conditions.__init__` (conditions.py:203-222): the table `Equals` of `_get_condition_equals` (conditions.py:224-285), which is computed first, and whose failure leaves the template without any conditions. `get_hash` (conditions.py:21-23) is `json.dumps` with `sort_keys`, which cannot sort the keys of an object that has both texts and numbers as keys. Apart from such objects it is `H`, as in Model/Conditions.
* `Model/CondGrammar.lean` (17 definitions): Model of the rules about the form of conditions: E8001 (rules/conditions/Configuration.py), E8003 (Equals.py), E8004 (And.py), E8005 (Not.py) and E8006 (Or.py) with rules/conditions/common.py, and of the lookup of `RegexDict` (helpers.py:204-225). A finding is the path it is reported at; the messages are not modelled. `re.match(pattern, string)` is the parameter `rx`, as in Model/Refs.
* `Model/CondRules.lean` (15 definitions): Model of the rules about the use of conditions: W8001 (rules/conditions/Used.py:20-58) and E8002 (rules/conditions/Exists.py:18-63). A finding is the path it is reported at and the name of the condition.
* `Model/Conditions.lean` (43 definitions): Model of `src/cfnlint/conditions.py`. `H : Val → String` stands for `get_hash` (conditions.py:21-23): the SHA-1 of the canonical JSON text. A digest is never the empty string, so the truthiness tests on `Function` are `is not None` tests. Values that `json.dumps` refuses are dealt with in Model/CondEquals (mixed key types) or not modelled (dates). Sets are duplicate-free lists; the order in which Python enumerates a set is a parameter (`enum`). The recursion limit is the parameter `fuel`.
* `Model/Config.lean` (34 definitions): Model of `src/cfnlint/config.py`: configuration sources, precedence, template Metadata, merging of configuration files, the `-x` option, selection of templates. Values of options are `Val`s. Marks are not modelled here.
* `Model/ConfigFiles.lean` (25 definitions): Model of the configuration files: `ConfigFileArgs` of `src/cfnlint/config.py` lines 44-228 and the schema `src/cfnlint/data/CfnLintCli/config/schema.json` the files are validated against. Simplifications: a path is a string, and a name that does not begin with `/` is looked up in the current directory. What `cfn_yaml.load` makes of a file is part of the machine (the decoder has its own model). `jsonschema.validate` is modelled for this one schema (draft 7): its verdict, not its message. A caller's own `schema` argument is not modelled (the program never passes one).
* `Model/Convert.lean` (9 definitions): Model of `convert_dict` (helpers.py:489-509): plain data, or data that is already partly annotated, is turned into annotated nodes. Objects, lists and strings may or may not carry marks.
* `Model/Core.lean` (17 definitions): Model of `src/cfnlint/core.py` and of the loop of `src/cfnlint/__main__.py`.
* `Model/Declared.lean` (20 definitions): Model of the rules on how parameters and resources are declared: E2001 (rules/parameters/Configuration.py), E2002 (rules/parameters/Types.py) and E3001 (rules/resources/Configuration.py). A finding is its path and its kind. The specifications are, for each region, the types of resources with their properties and whether these are required; the names of the types in the registry are another parameter.
* `Model/Decode.lean` (16 definitions): Model of `decode` (src/cfnlint/decode/__init__.py:21-128) with the file access of `cfn_yaml.load` (cfn_yaml.py:197-211) and `cfn_json.load` (cfn_json.py:341-355). PyYAML's scanner, parser and composer are the parameter `compose`; the scalar constructors are the parameter `ctor`; what the two reads of the file give is a parameter too. `fileinput` keeps a global reader: it refuses a new `input()` while the previous one is in the middle of a file.
* `Model/Default.lean` (15 definitions): Model of rule E2015 (rules/parameters/Default.py). A finding is the name of the parameter and the constraint; its path is `Parameters/<name>/Default`. The texts of the messages are not modelled.
* `Model/Docs.lean` (10 definitions): Model of `update_documentation` (maintenance.py:87-135), which rewrites the list of rules in `docs/rules.md`. The file is its text; line ends are taken to be line feeds. `texts` gives what a rule says about itself, `grep` the output of `git grep`, stripped (none if it finds nothing, which raises CalledProcessError). The result is the text of the file afterwards and whether the function raised.
* `Model/Ebs.lean` (13 definitions): Model of E2504 (rules/resources/ectwo/Ebs.py), of E2506 (rules/resources/ectwo/SecurityGroupIngress.py) and of E3503 (rules/resources/certificatemanager/DomainValidationOptions.py). A finding is its path; the messages are not modelled. `fuel` is the recursion limit.
* `Model/Elb.lean` (25 definitions): Model of E2503 (rules/resources/elb/Elb.py): listeners and load balancers. The texts of the messages are not modelled, only which of them it is and the scenario it names. `upper` is `str.upper` on the ASCII letters; other letters are left as they are.
* `Model/FnShape.lean` (23 definitions): Model of the rules on the form of calls: E1028 (rules/functions/If.py), E1017 (Select.py), E1018 (Split.py), E1016 (ImportValue.py), E1021 (Base64.py), E1015 (GetAz.py) and E1023 (Not.py), all in rules/functions. A finding is its path; E1023 appends the value itself to the path, which is left out here. Messages are not modelled.
* `Model/Format.lean` (48 definitions): Model of the parseable, the JSON, the pretty and the JUnit output, formatters/__init__.py:33-53, 71-248, and of the parts of Python's `json.encoder` used by `json.dumps` with an indentation of four and sorted keys. Of the JUnit output the test cases are modelled, not their serialisation by the `junit_xml` package. A position of a finding is four integers. Texts hold no lone surrogates (`String`). Colours are not modelled: the output is taken not to be a terminal.
* `Model/GetAtt.lean` (17 definitions): Model of rule E1010 (rules/functions/GetAtt.py) with `get_valid_getatts` (template.py:167-200) and `get_modules` (template.py:91-104). A finding is the path of the key `Fn::GetAtt` and its kind; whether the path of the `RuleMatch` also holds the value and the texts of the messages are not modelled. A dictionary as argument of `Fn::GetAtt` raises `KeyError` (Python would accept a dictionary with the integer keys 0 and 1). The resource types are those of the region us-east-1.
* `Model/Graph.lean` (24 definitions): Model of the dependency graph (`src/cfnlint/graph.py`) and of rule E3004 (rules/resources/CircularDependency.py). A graph is the list of its edges in the order they are added; the labels do not matter here. `networkx.find_cycle` is a parameter: the edges of the cycle it returns (source, target, number of the parallel edge), or `none` for `NetworkXNoCycle`. Keys of sections are strings or integers.
* `Model/GraphDot.lean` (9 definitions): Model of the option `--build-graph`: the graph with its labels (graph.py:18-94), `Graph.to_dot` (graph.py:119-129), `Template.build_graph` (template.py:52-61) and their place in `run_cli` (core.py:43-60). A node is the name of a resource with the value its label shows; an edge is its source, its target and its label. The order of the nodes in `networkx`, and the text the label is made of, are not modelled. What `write_dot` does is the parameter `write`. The other parts of `run_cli` are in Model/Override and Model/Registry.
* `Model/GroupRules.lean` (16 definitions): The rules on groups of properties and on lists, as they are set up and called: `__init__` or `initialize`, `match_resource_properties` and `match_resource_sub_properties` of E2520 (Exclusive.py), E2521 (Inclusive.py), E2522 (AtLeastOne.py), E2523 (OnlyOne.py), E3032 (ListSize.py), E3037 (ListDuplicates.py) and I3037 (ListDuplicatesAllowed.py), all of rules/resources/properties, around the checks of Model/PropSets and Model/ListSpecs. The tables of the first four are the files of data/AdditionalSpecs, which are written out here. The scenarios of the conditions come from the table of the conditions of the template, `tb`.
* `Model/IamPolicy.lean` (17 definitions): Model of E2507 (rules/resources/iam/Policy.py). A finding is the kind of its message and its path. Dates do not exist among the values modelled, so that a version is valid if it is one of two texts. `decode` is `json.loads` followed by `convert_dict`; it gives nothing where an exception is raised.
* `Model/Interface.lean` (11 definitions): Model of the rules on the interface of a template: E4001 (rules/metadata/InterfaceConfiguration.py) and W4001 (rules/metadata/InterfaceParameterExists.py), of E3007 (rules/resources/UniqueNames.py), and of `get_parameter_names` (template.py:124-132).
* `Model/Join.lean` (12 definitions): Model of rule E1022 (rules/functions/Join.py). The functions are those of `IntrinsicTypes` in the specification (data/ExtendedSpecs/all/02_intrinsic_types.json). All findings are at the path of the call; the messages are not modelled.
* `Model/Json.lean` (25 definitions): Model of the JSON decoder of cfn-lint: `src/cfnlint/decode/cfn_json.py`, together with the parts of Python's `json.decoder` it calls (`JSONArray`, `JSONDecoder.decode`, `JSONDecoder.raw_decode`, the `WHITESPACE`, `STRINGCHUNK` and `NUMBER_RE` patterns). * A position in the document is modelled by the characters that remain, so marks are not modelled here. * A decoded string is a list of code points (`JText`), because Python strings may hold lone surrogates, which are not `Char`s. * A floating point number is kept as its text: `float(text)` is opaque. * `\d` in `NUMBER_RE` is restricted to the ASCII digits. * The recursion of the scanner is bounded by a counter which `jsonLoads` sets high enough for every document (`scan_fuel_suffices` in Lemmas/Json).
* `Model/JsonMarks.lean` (30 definitions): Model of the positions the JSON decoder records and reports: the marks of keys, objects and lists (`src/cfnlint/decode/cfn_json.py:157-258`, `329-338`, `373-378`) and the place of an error (`cfn_json.py:46-68`). The decoder of Model/Json is written once more, now with the document at hand; a position is still modelled by the characters that remain from it, `posOf` turns it into an index. That forgetting the marks gives back the decoder of Model/Json is a theorem (`C97_erased`).
* `Model/JsonSize.lean` (13 definitions): Model of E3502 (rules/resources/properties/JsonSize.py). The texts of floats are those of `repr`; dates do not occur. The rows of a property hold what `check` reads: `limit` is the value of `JsonMax` for properties of the type `Json` whose entry has a `Value`; it is `none` where the value type has no such limit. `below` stands for `get_condition_scenarios_below_path`.
* `Model/Limits.lean` (46 definitions): Model of the limit rules: `src/cfnlint/rules/common.py` and the rules in `rules/{mappings,outputs, parameters,resources,templates}/{Limit,ApproachingLimit}*.py`. `cfn.template` is a template value. The float product `LIMITS['threshold'] * limit` is computed as IEEE double arithmetic does it: the double nearest to 0.9 times the limit, rounded to 53 significant bits.
* `Model/Lint.lean` (12 definitions): Model of a whole run over one template: the decorator `matching` (rules/__init__.py:108-151), `RulesCollection.run` (rules/__init__.py:378-408) with the traversal of `run_resource`, and their place inside `Runner.run` and `run_checks`. What a rule does is a parameter (`Behaviour`): the functions a rule class overrides, applied to the plain template. A rule that reads more of `cfn` than the template (the regions, the `Globals` of before a transformation) has it in its behaviour. The models of the single rules are instances, see Props/Lint.
* `Model/ListSpecs.lean` (19 definitions): Model of the rules about the lists that are values of properties: E3032 (rules/resources/properties/ListSize.py), E3037 (ListDuplicates.py) and I3037 (ListDuplicatesAllowed.py). A finding is its path and the scenario named in the message.
* `Model/Main.lean` (11 definitions): Model of the command: `get_args_filenames` (core.py:118-162) with the listing of the rules (`RulesCollection.__repr__`, rules/__init__.py:230-232), `main` (__main__.py:14-52) and the two ways it is started, the console script of setup.py:60-64 and `python -m cfnlint` (__main__.py:55-59). Parsing of the command line, the maintenance commands and the text of the output are not modelled.
* `Model/Mappings.lean` (17 definitions): Model of the rules on mappings: E1011 (rules/functions/FindInMap.py), W1011 (rules/functions/FindInMapKeys.py), E7001 (rules/mappings/Configuration.py) and `get_mappings` (template.py:106-112). A finding is the path it is reported at; the messages are not modelled.
* `Model/Modules.lean` (24 definitions): Model of E5001 (rules/resources/Modules.py), of E3038 (rules/resources/ServerlessTransform.py), of W3002 (rules/resources/properties/PropertiesTemplated.py), of E2529 (rules/resources/lmbd/EventsLogGroupName.py) and of W2510 (rules/parameters/LambdaMemorySize.py). A finding is its path; the messages are not modelled. `fuel` is the recursion limit.
* `Model/NoEcho.lean` (8 definitions): Model of rule W4002 (rules/resources/NoEcho.py). A finding is its path and the name of the parameter; the texts of the messages are not modelled.
* `Model/Node.lean` (10 definitions): Model of the marked template nodes of `src/cfnlint/decode/node.py`. `dict_node` and `list_node` always carry a start and an end mark; a string carries marks when it is a `str_node` (every YAML string, every JSON key) and none when it is a plain `str` (JSON string values). Numbers, Booleans and null carry none.
* `Model/NodeMarks.lean` (11 definitions): Model of the marks of the nodes that `src/cfnlint/decode/node.py` makes anew: copies (`__deepcopy__`), cleaned objects (`clean`), defaults (`get`), and what `items_safe` and `get_safe` return. The values alone are in Model/NodeOps. Assignment to a key that an object has already keeps the old key, with its marks, as in Python. A value that is copied holds no value twice (values shared through YAML anchors are treated as separate values).
* `Model/NodeOps.lean` (11 definitions): Model of the safe accessors of `src/cfnlint/decode/node.py`. The marks the results carry are those of the nodes they come from and are not modelled here.
* `Model/Outputs.lean` (22 definitions): Model of the rules on outputs: E6001 (rules/outputs/Configuration.py), E6002 (rules/outputs/Required.py), E6003 (rules/outputs/Value.py), E6005 (rules/outputs/Description.py) and W6001 (rules/outputs/ImportValue.py), and of E1004 (rules/templates/Description.py). A finding is its path; of the messages only `'/'.join(path)` is modelled, as it can raise. The table of the attributes of resources is a parameter.
* `Model/Override.lean` (9 definitions): Model of the file that overrides the specifications: `override_specs` (helpers.py:512-532) and `set_specs` (helpers.py:337-382) for all regions, as `run_cli` (core.py:43-47) calls it for one template after the other; and of `get_formatter` (core.py:77-94). `sys.exit(1)` is `RunErr.exit 1`. A failure of `set_specs` is a failure of the whole, as in Model/Specs.
* `Model/ParamUses.lean` (9 definitions): Model of the rules that compare the values of parameters with what the specification says of the properties they are used for: W2030 (rules/parameters/AllowedValue.py) and W2031 (rules/parameters/AllowedPattern.py). A finding is its path; the messages are not modelled. What the rule says of a text (`bad`) is `none` where nothing is specified.
* `Model/Password.lean` (12 definitions): Model of W2501 (rules/resources/properties/Password.py), of W2506 (rules/resources/properties/ImageId.py), and of REGEX_DYN_REF and REGEX_DYN_REF_SSM (helpers.py:77-78). A finding is its path with what was found.
* `Model/Patch.lean` (12 definitions): Model of the processing of a downloaded specification (maintenance.py:51-85): `patch_spec` (maintenance.py:138-163) and the replacement of the botocore types (maintenance.py:59-80). The `jsonpatch` package is taken to do what RFC 6902 says for `add`, `remove` and `replace`, the only operations in `data/ExtendedSpecs`. A path is a list of names of members; none of the shipped paths goes into a list, so that going on from anything other than an object is a `JsonPointerException` or a `JsonPatchConflict`, which are ignored. The directories are those without subdirectories. The value `shapes` gives the `shapes` of the description of a service that is downloaded (the cache does not change what it is), and raises when there is none.
* `Model/Permissions.lean` (21 definitions): Model of W3037 (rules/resources/iam/Permissions.py). A finding is the kind of its message and its path. `raw` is the table of services of `Policies.json`, as the prefix and the actions of each service; `decode` is `json.loads` followed by `convert_dict`, and gives nothing where an exception is raised.
* `Model/Pipeline.lean` (27 definitions): Model of rule E2541 (rules/resources/codepipeline/CodepipelineStageActions.py). A finding is its path and which of the messages it carries.
* `Model/Plugins.lean` (20 definitions): Model of how the rules are found: `create_rules`, `import_filename` and `load_plugins` (helpers.py:420-489), `create_from_module` and `create_from_directory` (rules/__init__.py:410-420) and the loop of `get_rules` (core.py:97-109). What the source files contain is a parameter: `run path` executes the file at a path and gives the attributes of the module. Only Python 3.5 and later, on a file system that tells capitals from small letters; links are not followed and so are no folders.
* `Model/Policies.lean` (14 definitions): Model of the rules on the policies of resources: E3035 (rules/resources/DeletionPolicy.py), E3036 (rules/resources/UpdateReplacePolicy.py), W3011 (rules/resources/BothUpdateReplacePolicyDeletionPolicyNeeded.py) and I3011 (rules/resources/UpdateReplacePolicyDeletionPolicyOnStatefulResourceTypes.py). A finding is its path and its kind; the texts of the messages are not modelled.
* `Model/PolicyUpdate.lean` (7 definitions): Model of the update of the IAM policies: `update_iam_policies` (maintenance.py:166-188). The text of the download is an argument, an error when the request fails; `loads` is `json.loads`. The contents of the file are the value written to it. The states of the file during the update are listed as in Model/Update: `open(f, 'w')` truncates it before anything is written.
* `Model/PolicyVersion.lean` (4 definitions): Model of W2511 (rules/resources/iam/PolicyVersion.py). A finding is its path. Versions that YAML reads as dates are not modelled: there are no dates among the values of the model.
* `Model/PrimType.lean` (15 definitions): Model of E3012 (rules/resources/properties/ValuePrimitiveType.py:12-197) and of the loops over the declared properties that it shares with other rules. A finding is its path; the messages are not modelled. `fuel` is the recursion limit of `get_values`.
* `Model/PropCheck.lean` (24 definitions): Model of E3002 (rules/resources/properties/Properties.py:14-369). A finding is its path; the messages are not modelled. `fuel` is the recursion limit. The specification is a parameter; resource types are taken to have no `Type` of their own.
* `Model/PropSets.lean` (23 definitions): Model of the rules about which properties an object has: E3003 (rules/resources/properties/Required.py), E2522 (AtLeastOne.py), E2523 (OnlyOne.py), E2520 (Exclusive.py) and E2521 (Inclusive.py). What the specification files say about a type is given as a list of names, of groups of names or of names with other names. The text of a message is not modelled; a report carries what is inserted in it.
* `Model/Py.lean` (30 definitions): Python data as used by cfn-lint, and Python exceptions as values.
* `Model/RecordSet.lean` (14 definitions): Model of E3020 (rules/resources/route53/RecordSet.py:20-266). A finding is its path. `v6` stands for REGEX_IPV6, which uses look-ahead and references to groups; `below` for `get_condition_scenarios_below_path`. `isdigit` is modelled for ASCII digits. When a record of type MX has a good priority and a bad name the code uses the variable `message` before it has a value (line 137).
* `Model/RefAtt.lean` (16 definitions): Model of E3008 (rules/resources/properties/ValueRefGetAtt.py): what the specification says of the references in the values of properties. A finding is its path; the messages are not modelled, nor is what is printed at line 175. `fuel` is the recursion limit of `get_values`.
* `Model/RefRules.lean` (11 definitions): Model of E1020 (rules/functions/Ref.py), I1022 (rules/functions/SubNotJoin.py), E1026 (rules/functions/RefInCondition.py), E2014 (rules/parameters/DefaultRef.py), E7003 (rules/mappings/KeyName.py) and E1001 (rules/templates/Base.py). A finding is its path; the messages are not modelled.
* `Model/Refs.lean` (13 definitions): Model of the reference checks: `get_valid_refs` and `get_valid_getatts` (template.py:134-200), `get_modules` (template.py:91-104), `RegexDict` (helpers.py:204-225), rule E1012 (rules/functions/RefExist.py) and rule E1010 (rules/functions/GetAtt.py). `re.match(pattern, string)` is a parameter `rx`: whether it matches, or the exception of a bad pattern.
* `Model/Regex.lean` (23 definitions): Regular expressions as used by the rules: REGEX_ALPHANUMERIC, REGEX_CIDR and REGEX_IPV4 (helpers.py:70-74), REGEX_DOMAINNAME, REGEX_TXT and REGEX_CNAME_VALIDATIONS (rules/resources/route53/RecordSet.py:21-24). Only whether a text matches is modelled, not the groups. `re.match` with `^…$` accepts a line break after the match.
* `Model/Registry.lean` (10 definitions): Model of E3000 (rules/resources/ResourceSchema.py) and of the schemas it uses, which `run_cli` loads for each template (core.py:53-58) and keeps (helpers.py:322). `validate` stands for `jsonschema.validate`: `none` for a valid object, a text for the message of a `ValidationError`, an error for every other exception. `shown` is `str` of an object; such a text has no line ends.
* `Model/Relations.lean` (17 definitions): Model of the rules about references between resources: W1001 (rules/functions/RelationshipConditions.py), E3005 (rules/resources/DependsOn.py) and W3005 (rules/resources/DependsOnObsolete.py). Messages are modelled by their variable parts. `tree[-1] == key` of W3005 is structural equality: numbers that Python calls equal though their types differ (`1 == 1.0`) are not modelled; texts are exact.
* `Model/ResProps.lean` (3 definitions): Model of `get_resource_properties` (template.py:269-281) and `_get_sub_resource_properties` (template.py:221-267). A result is its path and its value. `fuel` is the recursion limit.
* `Model/RouteTable.lean` (8 definitions): Model of rule E3022 (rules/resources/ectwo/RouteTableAssociation.py). A finding is the name of the resource, its path being `Resources/<name>/Properties/SubnetId`, and the names of the other resources. `==` of values of different types of numbers is simplified to equality.
* `Model/Rules.lean` (41 definitions): Model of `src/cfnlint/rules/__init__.py`: rule enablement, rule options, the rule collection, `Match`, and `run_check`.
* `Model/Runner.lean` (14 definitions): Model of `src/cfnlint/runner.py` (deduplication and directive filtering) and of `Template.get_directives` (template.py:202-219).
* `Model/Runtimes.lean` (7 definitions): Model of the rules on the runtimes of functions, W2531 and E2531: rules/resources/lmbd/DeprecatedRuntime.py, DeprecatedRuntimeEol.py and DeprecatedRuntimeEnd.py. The table LmbdRuntimeLifecycle.json is a parameter; its dates are read already (`strptime`) and are numbers, as is the time of the run. A finding is its path; the message is not modelled. The parameters of the template are an object.
* `Model/SamRun.lean` (8 definitions): Model of `Runner.transform` (runner.py:25-42) and `Transform.transform_template` (transform.py:101-147). The translator of the serverless model is an argument: it is given the template and the parameters that are set to `Alias`, and either returns a template or raises; it may change the template that it is given. So is `convert_dict`, which is modelled in `Convert.lean`.
* `Model/Scenario.lean` (39 definitions): Model of `src/cfnlint/template.py`: conditions on a path, availability of resources, objects under a scenario (template.py:584-940). Simplifications: a dictionary as argument of `Fn::If` raises `KeyError` (Python would accept a dictionary with the integer keys 0, 1 and 2); `1.0` and `1` are different condition names.
* `Model/Schedule.lean` (8 definitions): Model of rule E3027 (rules/resources/events/RuleScheduleExpression.py). A finding is its path and which of the messages it carries. Whether a character counts for `str.isdigit` is a parameter.
* `Model/SectionNames.lean` (3 definitions): Model of the rules on the names in the sections of a template: E2003, E3006, E6004 and E7002 (`alphanumeric_name` of rules/common.py with rules/parameters/Name.py, rules/resources/Name.py, rules/outputs/Name.py and rules/mappings/Name.py).
* `Model/SecureRefs.lean` (10 definitions): Model of rule E1027 (rules/functions/DynamicReferenceSecureString.py) and of REGEX_DYN_REF_SSM_SECURE (helpers.py:79). A finding is its path; the message is not modelled. Which characters `\d` takes is a parameter (in Python 3 it takes the digits of all scripts).
* `Model/SpecRules.lean` (18 definitions): The rules that check the properties of resources against the specification, as they are set up and called: their `initialize`, `match_resource_properties` and `match_resource_sub_properties`, around the checks that Model/PropSets, Model/PrimType and Model/ValueSpecs model. Here the specification is one JSON object for each region, and what the single models take as typed declarations are views of it; the traversal (rules/__init__.py:259-376) reads that of us-east-1, the rules read that of `cfn.regions[0]`. The lists of types a rule registers for are those of the first region. Some rules append to the lists for every template, so that types of the region of an earlier template stay; the declarations are looked up in the current region, and for a type it does not have nothing is declared and nothing found.
* `Model/SpecUses.lean` (10 definitions): The rules that check what the properties of resources use against the specification, as they are set up and called: W2030 (rules/parameters/AllowedValue.py), W2031 (rules/parameters/AllowedPattern.py), E3008 (rules/resources/properties/ValueRefGetAtt.py), E3502 (rules/resources/properties/JsonSize.py) and E1027 (rules/functions/DynamicReferenceSecureString.py), around the checks that Model/ParamUses, Model/RefAtt, Model/JsonSize and Model/SecureRefs model. The specification is one JSON object for each region, as in Model/SpecRules.
* `Model/Specs.lean` (9 definitions): Model of the specification overrides: `merge_spec` and `set_specs` (helpers.py:324-382). Failures in the middle of an in-place merge are modelled as failure of the whole. `includes` and `excludes` are the lists popped from the override file (helpers.py:344-347), the override is what remains. The regular expression engine is the parameter `rx`: `none` when `re.compile` raises, otherwise `re.match`.
* `Model/Stages.lean` (16 definitions): Model of rule E2540 (rules/resources/codepipeline/CodepipelineStages.py). A finding is its path, which of the messages it carries and the scenario. Categories that are not texts are told apart by their values (1 and true are not the same).
* `Model/StagesRule.lean` (1 definitions): The loop of E2540 over the pipelines of a template, around the checks of Model/Stages.
* `Model/StateMachine.lean` (12 definitions): Model of rule E2532 (rules/resources/stepfunctions/StateMachine.py). What `json.loads` makes of a value is a parameter: `none` says that it raises, which the rule catches. A finding is its path and what was found; the words of the message are not modelled. The document that was read is a plain one, not of template nodes, so that only the kinds of the errors are those of the code.
* `Model/Sub.lean` (15 definitions): Model of the variables of `Fn::Sub` (`get_sub_parameters`, template.py:453-462) and of the rules built on it: W2001 (rules/parameters/Used.py), W7001 (rules/mappings/Used.py), W1019 (rules/functions/SubParametersUsed.py) and W1020 (rules/functions/SubUnneeded.py). Messages are left out; a finding is its path and the name it is about. `pre` is the template the linter was built with, `t` the template when the rule runs: the rules that use `transform_pre` see the uses before a transform (template.py:37-41).
* `Model/SubNeeded.lean` (17 definitions): Model of E1029 (rules/functions/SubNeeded.py). A finding is its path; the messages are not modelled. The option `custom_excludes` is a parameter: whether a variable matches it.
* `Model/SubRule.lean` (14 definitions): Model of rule E1019 (rules/functions/Sub.py). A finding is its path and its kind; the texts of the messages are not modelled. Numbers that are not integers equal no name. `get_resource_names` (template.py:114-122) and `get_valid_getatts` (template.py:167-200) are evaluated for every variable, as in the code.
* `Model/TableKeys.lean` (12 definitions): Model of rule E3039 (rules/resources/dynamodb/AttributeMismatch.py). Sets of names are lists; a finding carries its path and the two lists of the message. `logger.info` is left out.
* `Model/Targets.lean` (9 definitions): Model of E3021 (rules/resources/events/RuleTargetsLimit.py). A finding is its path. The counts are kept in the rule object between the resources; `initialize` (RuleTargetsLimit.py:24-25) empties them for each template.
* `Model/TargetsRule.lean` (5 definitions): E3021 (rules/resources/events/RuleTargetsLimit.py) as a function of the template, the properties and their place. The rule object keeps its counts between the calls; they are those of the calls before, on the resources of the type in the order of the template (rules/__init__.py:391-400), and `initialize` (RuleTargetsLimit.py:24-25) empties them before the first. Simplified: a call that fails leaves the counts as they were, where the rule would keep those of the values before the failure.
* `Model/Template.lean` (23 definitions): Model of `src/cfnlint/template.py`: searching keys, locations, resolving `Fn::If`, conditions on a path, scenario projections, valid references.
* `Model/Transform.lean` (13 definitions): Model of the serverless pre-processing, `Transform._replace_local_codeuri` (transform.py:49-99) and `_update_to_s3_uri` (transform.py:165-193). Exceptions abandon the transformation (they are reported by `transform_template`), so the partly changed template of that case is not modelled. Values shared through YAML anchors are treated as separate values.
* `Model/Traverse.lean` (16 definitions): Model of the traversal of resource properties, `RulesCollection.resource_property` and `run_resource`, rules/__init__.py:259-376. The specification of us-east-1 is given as typed declarations; the code reads it from JSON objects. A property type or resource type without `Properties` has an empty list here (the code treats an empty object the same way for property types; a resource type without `Properties` would raise). A declared property is a nonempty object. `run_check` on each invocation is the subject of C05; here an invocation is recorded. The recursion limit of the interpreter is not modelled.
* `Model/Update.lean` (12 definitions): Model of the specification update: `url_has_newer_version`, `get_url_content`, `load_metadata`, `save_metadata` (helpers.py:225-310) and `update_resource_spec` (maintenance.py:36-85), for one region. The disk holds two files: the download metadata of the URL and the specification of the region. `open(f, 'w')` truncates the file before anything is written, so a write goes through a torn state. An update is the list of the states of the disk it goes through, the first being the one it starts from, and its outcome; when it is interrupted the disk is in one of these states. `process` stands for parsing the body, patching it and replacing the botocore types (maintenance.py:53-82), which may raise (also because of the network). Creating the metadata directory is not modelled, nor are the other regions: their files are different.
* `Model/UpdatePolicy.lean` (10 definitions): Model of the rule on update policies: E3016 (rules/resources/updatepolicy/Configuration.py). A finding is its path and its kind.
* `Model/UpdatePool.lean` (9 definitions): Model of `update_resource_specs` (maintenance.py:22-34): the specifications of the regions are updated by the processes of a pool. The disk is shared: the directory of the download metadata, the metadata by the name of the file, which is a digest of the URL (helpers.py:225-231), and the specifications by region. A process goes through `update_resource_spec` (maintenance.py:36-85) in steps, each of which looks at the disk or changes it once; the steps of the processes are taken in any order. The number of processes of the pool is not modelled: a job that waits for a process is one that takes no step. Nor is what happens when a job fails: the pool is ended (maintenance.py:28), which is a run that stops. `process` stands for parsing, patching and replacing, as in Model/Update, for each region.
* `Model/ValueSpecs.lean` (17 definitions): Model of the rules that compare the values of properties with what the specification says of the type of a value: E3030 (rules/resources/properties/AllowedValue.py), E3031 (AllowedPattern.py), E3033 (StringSize.py) and E3034 (NumberSize.py). A finding is its path; the messages are not modelled. `fuel` is the recursion limit of `get_values`.
* `Model/Yaml.lean` (18 definitions): Model of the YAML constructor of cfn-lint: `src/cfnlint/decode/cfn_yaml.py` (NodeConstructor, multi_constructor, construct_getatt, loads) with PyYAML's `BaseConstructor.construct_object`, `construct_mapping`, `construct_sequence` and `construct_scalar`. The scanner, parser, composer and implicit resolver of PyYAML are not modelled: the input is the composed node tree, whose nodes carry their resolved tags. Aliases are expanded (a recursive alias is rejected by PyYAML itself). Trees are those after `flatten_mapping`, that is without merge keys. Marks are left out. Mapping keys that are neither text nor integers nor booleans nor collections (floats, dates) are not modelled.
* `Model/ZoneNames.lean` (7 definitions): Model of rule E3041 (rules/resources/route53/RecordSetName.py). A finding carries its path and its scenario; the property named last in the path tells the two messages apart.
* `Model/Zones.lean` (4 definitions): Model of W3010 (rules/resources/properties/AvailabilityZone.py) and of E3050 (rules/resources/iam/RefWithPath.py). A finding is its path.

Everything else under `/repo/src/cfnlint` is not modelled, in particular the rules not named above.

## Disagreements between code and property

Each theorem proves that the full statement of the property fails for the code as it is, or gives a concrete input on which it does. The strongest restriction that was proved has a name ending in `_partial`.

**C04 Rule options come only from the current template's configuration**

* `C04_options_violated` - C04 does not hold: a rule whose options were set for an earlier template keeps them when the next template's configuration does not mention the rule.

**C05 A crashing rule does not hide other rules' findings**

* `C05_isolation_violated` - C05 does not hold when E0002 is ignored: the crash of one rule aborts the whole run and the finding of the other rule is lost.

**C07 Directives suppress exactly the findings in their scope**

* `C07_directives_violated` - C07 fails for a resource written on one line: a finding to the right of the resource is dropped.

**C08 A directive on one resource never hides a finding on another**

* `C08_other_resource_violated` - C08 fails: `{"A": {...ignore...}, "B": {...}}` on one line; the directive on `A` hides the finding on `B`.

**C11 An engine failure is never reported as a clean template**

* `C11_swallowed_violated` - C11 fails: an exception while the rules run is swallowed (core.py:243-245 builds an exception without raising it) and the template is reported clean with exit code 0.

**C14 Parse errors of a template depend only on that template and the global configuration**

* `C14_history_violated` - C14 fails: after a template with `ignore_bad_template: true` the next template's parse error is dropped.

**C16 Templates cannot weaken mandatory checks**

* `C16_parse_error_violated` - C16 fails for parse errors: a template's Metadata suppresses the mandatory E0000 of the next one.

**C19 Rule option strings parse as written**

* `C19_misread_violated` - C19 fails for values containing `=` or `:`: the rest of the value is silently dropped.

**C20 Template selection**

* `C20_once_violated` - C20 fails for overlapping patterns: `a.yaml *.yaml` lints `a.yaml` twice.

**C22 Scenario completeness**

* `C22_five_violated` - **C22** Five unrelated conditions: only "all true" and "all false" are returned.

**C23 Scenario soundness**

* `C23_two_expressions_violated` - **C23** A comparison of two expressions gives impossible scenarios: both parameters are `a`, yet different.

**C24 Condition evaluation agrees with CloudFormation semantics**

* `C24_literals_violated` - **C24** The comparison of two equal literals has no value.
* `C24_booleans_violated` - **C24** A parameter with the value `true` compared with the literal `true`: the code says they differ.

**C25 Loading conditions never fails**

* `C25_missing_violated` - **C25** A condition that names a missing condition makes the request raise.

**C27 Deep key search is exact**

* `C27_globals_violated` - After a transform, results inside the saved `Globals` have paths which do not lead anywhere.

**C28 Reported locations are the most specific available**

* `C28_root_violated` - The empty path, which leads to the template itself, raises.
* `C28_list_item_violated` - On the way up, the item of a list is passed over although it carries a mark.

**C29 Conditional values carry correct paths**

* `C29_null_branch_violated` - A null branch (the JSON decoder accepts nulls inside arrays) raises.

**C30 items_safe enumerates exactly the reachable objects**

* `C30_cleaned_to_noValue_violated` - An object `{Ref: AWS::NoValue, X: {Ref: AWS::NoValue}}` loses `X` when cleaned and what is left is a reference to `AWS::NoValue`.

**C31 Resource availability**

* `C31_false_branch_violated` - The reference exists only when the resource does not, yet it is called available.
* `C31_contradiction_violated` - A reference that never exists is reported.

**C32 Scenario projection of a value is consistent**

* `C32_nested_violated` - C32 fails: an `Fn::If` inside a nested object is not resolved although the scenario knows its condition.
* `C32_root_violated` - C32 fails: the branch taken by an `Fn::If` that is the whole object is not processed.
* `C32_null_violated` - C32 fails for the deep function: removed properties stay, with the value null.
* `C32_novalue_violated` - C32 fails without conditions: a removed property stays.

**C33 Reference existence check is exact**

* `C33_prefix_violated` - **C33** fails: a reference to `Environment`, which does not exist, is accepted because there is a parameter `Env`.
* `C33_number_violated` - **C33** fails for a reference that is a number: the check itself raises.

**C36 YAML duplicates and nulls are rejected, short-form tags equal long form**

* `C36_duplicate_violated` - `!Transform {Name: a, Name: b}` is accepted.
* `C36_short_violated` - `!Ref 1` is a reference to the text `1`, `Ref: 1` one to the number.
* `C36_getatt_violated` - `!GetAtt [A, !Ref B]` loses the function: the second item becomes the text `B`.
* `C36_violated`

**C37 Decoding is total**

* `C37_second_file_violated` - When standard input is not a terminal, the file decoded after one with undecodable contents makes `decode` raise `RuntimeError`, whatever it contains.
* `C37_unhashable_violated` - `{{a: b}: c}`: a mapping key that is itself a mapping (or a list) makes `decode` raise `TypeError`.
* `C37_getatt_violated` - `!GetAtt {a: b}` makes `decode` raise `AttributeError`.
* `C37_violated`

**C38 Specification overrides merge correctly**

* `C38_dot_violated` - **C38** A pattern is a regular expression but for its stars: `A.C` keeps the type `ABC`.

**C39 Node conversion preserves values**

* `C39_violated` - **C39** does not hold in full: a YAML mapping with the key 1 comes out with the key "1", and of an object with both keys one entry is lost.

**C40 Circular dependency detection**

* `C40_violated` - **C40** does not hold in full: a resource whose own attribute `my_attr` is substituted into it depends on itself, but the regular expression stops at the underscore.

**C41 Local code URI replacement**

* `C41_inline_violated` - an inline interface definition is destroyed
* `C41_application_violated` - the S3 location of a nested application is overwritten

**C42 Machine-readable output is faithful**

* `C42_violated` - the message of a `YAMLError` is not a text and the formatter fails
* `C42_colon_violated` - with a colon in the file name the fields cannot be told apart

**C43 Spec update is crash safe**

* `C43_stale_violated` - Fails: interrupted after the metadata is saved and before the specification is written, the specification stays as it was: the later update believes it is current.
* `C43_torn_violated` - Fails also while the metadata is written: from then on every update raises and changes nothing, whatever the server offers.
* `C43_error_violated` - Fails without an interruption when the processing raises, say because the botocore data cannot be fetched: the metadata has been saved.
* `C43_untagged_violated` - Fails without an interruption when an answer carries no tag: the specification is replaced and the tag of the previous one is kept.
* `C43_patches_violated` - Fails when the patches change: they are applied only when the server has a new version.

**C44 Every typed property object is visited**

* `C44_condition_violated` - C44 fails: the objects of a list given by a condition are not visited.
* `C44_map_violated` - C44 fails: the objects of a map are not visited.
* `C44_list_type_violated` - C44 fails: the objects of a list whose type is declared as a list are not visited.
* `C44_no_properties_violated` - C44 fails: an object of a type without declared properties is not visited when a condition gives it.
* `C44_no_value_violated` - C44 fails: a list item that refers to `AWS::NoValue` is visited.
* `C44_list_branch_violated` - C44 fails: the items of a list in a branch where a single object belongs are visited as objects.

**C45 Limit checks have exact boundaries**

* `C45_numeric_key_violated` - Fails: a numeric key next to the long name makes `len` raise, and nothing is reported.

**C47 JUnit output reports every finding**

* `C47_parse_error_violated` - **C47** (violated). The rules `E0000`, `E0001` and `E0002` are in no collection (`load_plugins` skips `__init__.py`), so a template that cannot be parsed appears without failures.
* `C47_violated`

**C48 Limits stated in bytes are measured in bytes**

* `C48_violated` - Fails: the rule counts characters. 1024 accented letters are 2048 bytes and are not reported.

**C49 The attribute reference check is exact**

* `C49_no_dot_violated` - C49 fails: an argument without a dot makes the rule fail, and with it every finding is lost.
* `C49_stack_set_violated` - C49 fails: every attribute of a stack set is accepted, since its type starts like that of a nested stack.
* `C49_nested_violated` - C49 fails: an attribute that exists is reported when its first part is an attribute too.
* `C49_no_resource_violated` - C49 fails: an argument that starts with a dot names no resource and is not reported.
* `C49_star_violated` - C49 fails: an attribute of a custom resource whose name starts with `*.` is reported.

**C50 Listed rules are the rules that run**

* `C50_mandatory_violated` - C50 does not hold: with `-m E3012 -i E3012` rule E3012 runs but is not listed.
* `C50_experimental_violated` - C50 does not hold: with `-e` experimental rules run but are not listed.
* `C50_listed_only_violated` - C50 does not hold: with any mandatory check experimental rules are listed although they do not run.

**C51 Status 0 means clean**

* `C51_module_violated` - C51 does not hold: started with `python -m cfnlint`, a `TypeError` while a template is checked is logged and the status is 0.
* `C51_empty_template_violated` - C51 does not hold: an empty template (`{}`) is not checked and the status is 0.
* `C51_severity_violated` - C51 does not hold: findings of a rule whose id begins with another letter do not change the status.
* `C51_ignored_violated` - C51 does not hold: a template that cannot be parsed leaves the status 0 when the template before it asks to ignore bad templates.

**C52 Every property value gets the check for its kind**

* `C52_transform_violated` - C52 does not hold: `Fn::Transform` is checked as if it were a literal value.
* `C52_null_branch_violated` - C52 does not hold: a null branch makes `check_value` raise.

**C53 Unused conditions are exactly reported**

* `C53_empty_if_violated` - C53 does not hold: an `Fn::If` with an empty list makes the rule raise.
* `C53_untyped_violated` - C53 does not hold: a condition used by a resource without a type is reported as unused.

**C54 Undefined conditions are reported where they are used**

* `C54_place_violated` - C54 does not hold: the undefined condition of the output `O` is reported at the output named like the condition, which need not exist.
* `C54_each_use_violated` - C54 does not hold: of several uses of an undefined condition only the last one is reported.

**C55 The JSON decoder accepts only JSON**

* `C55_nan_violated` - C55 does not hold: `NaN` is accepted.
* `C55_escape_violated` - C55 does not hold: an escape may hold a sign.

**C56 Variables of Fn::Sub are found exactly**

* `C56_empty_braces_violated` - C56 does not hold: empty braces swallow the text up to the next closing brace, and the variable in between is missed.
* `C56_nested_violated` - C56 does not hold: of nested braces the inner `${` becomes part of the name.

**C57 Unused parameters are reported exactly**

* `C57_empty_sub_violated` - C57 does not hold: an `Fn::Sub` with an empty list makes the rule raise.
* `C57_shadow_violated` - C57 does not hold: a parameter whose name is only a variable the `Fn::Sub` defines itself is not reported.

**C58 Unused mappings are reported exactly**

* `C58_empty_violated` - C58 does not hold: an `Fn::FindInMap` with an empty list makes the rule raise.

**C59 Superfluous Fn::Sub and superfluous variables are reported exactly**

* `C59_no_text_violated` - C59 does not hold: an `Fn::Sub` with a list of two elements, the first no text, makes rule W1020 raise.

**C60 Missing required properties are reported exactly**

* `C60_conditional_violated` - C60 fails: a property that a condition removes is not reported.
* `C60_unreachable_violated` - C60 fails: a property is reported missing in a branch that cannot be chosen.
* `C60_text_violated` - C60 also fails for a branch that is a text: a property is missing only if its name is not part of the text.
* `C60_custom_type_violated` - a resource whose type is not a text raises

**C61 Groups of which at least one or exactly one property is needed**

* `C61_empty_violated` - **C61** does not hold in full: if the condition removes the only property, the object is left empty, and E2522 skips the scenario (`if result_obj:` in `get_object_without_conditions`). `{A: {Fn::If: [C1, 1, AWS::NoValue]}}` is accepted though neither A nor B is there when C1 is false.
* `C61_only_one_undefined_violated` - **C61** E2523 reports an object that has exactly one of the properties whatever the conditions: the condition is not defined, there are no scenarios, and both properties count.

**C62 Properties that exclude or require one another**

* `C62_root_if_violated` - **C62** does not hold in full: if the properties are given by an `Fn::If`, the branch is taken as it is and the `Fn::If`s of its properties are not resolved. With C1 true the object has A and lacks B, which A requires; nothing is reported.
* `C62_root_if_unsound_violated` - **C62** E2520 on the same properties reports A and B as being together, which no deployment has.
* `C62_text_branch_violated` - **C62** a branch that is not an object raises an error.

**C63 References to resources that may not exist**

* `C63_violated` - **C63** A reference inside `Fn::Sub` is not checked.
* `C63_crash_violated` - **C63** A template with a `Ref` to `Fn::If` makes the rule raise.

**C64 Values of DependsOn**

* `C64_literals_violated` - **C64** A condition that compares two equal texts is always true, yet the resource under it is said to be missing.

**C65 Superfluous dependencies**

* `C65_sound_violated` - **C65** The name is compared with the first character of a text: a dependency on `Q` is called superfluous though only `Queue` is mentioned.
* `C65_complete_violated` - **C65** and a dependency on the resource a text names is not found.

**C66 Lookup of references**

* `C66_module_violated` - **C66** The pattern of a module is longer than its name, and wins over a declared name of the same length.
* `C66_prefix_violated` - **C66** A name that only begins with a declared name is taken for it.

**C67 Grammar of conditions**

* `C67_number_violated` - A number as argument of `Condition` is not reported.
* `C67_name_violated` - A condition named like a function is taken for a call of the function.
* `C67_operand_violated` - A logical function inside an operand is not reported.

**C68 Accepted conditions have a truth value**

* `C68_circle_violated` - A condition that negates itself is reported by none of the rules, and has no truth value.

**C69 Rules on mappings report exactly the faults**

* `C69_keys_violated` - With an empty map W1011 misses the missing key.
* `C69_violated` - A call without list inside a list makes E1011 raise.

**C70 Accepted Fn::FindInMap calls find a value**

* `C70_empty_map_violated` - A lookup in an empty map is not reported.
* `C70_empty_key_violated` - A lookup below an empty first key is not reported.

**C71 Faults of Fn::Sub are reported exactly**

* `C71_module_violated` - A resource that a module provides is reported as unknown.
* `C71_first_violated` - The rule raises when something else than a text stands before the variables.
* `C71_ref_violated` - The rule raises when a variable refers to something that is no text.
* `C71_path_violated` - The path of a finding about a variable leads nowhere: the index of the object of variables is left out.

**C72 Faults in the form of function calls are reported exactly**

* `C72_select_violated` - Rule E1017 accepts an index that is an object with several keys.
* `C72_zones_violated` - Rule E1015 says nothing about a list.
* `C72_if_violated`
* `C72_split_violated`

**C73 Faults of Fn::Join are reported exactly**

* `C73_parts_violated` - An attribute named in three parts is not found, and the call is reported.
* `C73_module_violated` - A list from inside of a module is not found, and the call is reported.

**C74 Texts of addresses and records are recognised exactly**

* `C74_cidr_violated` - (C74) the statement fails: every block with a line break behind it is accepted
* `C74_ipv4_violated` - (C74) numbers with leading zeros are accepted

**C75 Fn::Cidr is checked exactly**

* `C75_violated` - (C75) the statement fails for a call without a mask
* `C75_mask_violated` - (C75) a mask parameter may have a bound of 200, which no mask can be

**C76 Properties of resources are selected completely and at the right places**

* `C76_index_violated` - (C76) the value of the single key of an element is taken in place of the element, and its path lacks the index: what is returned is not what the keys lead to, and there is nothing at its path
* `C76_branch_violated` - (C76) what is behind a condition in place of an object is not found
* `C76_violated`

**C77 Records of a domain are checked by their type**

* `C77_mx_violated`

**C78 Properties of resources are those the specification declares**

* `C78_violated`

**C79 Variables outside of Fn::Sub are reported exactly**

* `C79_violated`

**C80 Values of properties have the declared primitive types**

* `C80_violated` - **C80** does not hold: a truth value is accepted as a whole number.

**C81 Values of properties are among those allowed**

* `C81_violated` - **C81** does not hold: a text that is too long is not found, if the least length is 0 (as for descriptions of security groups).

**C82 The number of elements of a list is checked in each deployment**

* `C82_violated` - **C82** fails: without conditions in the object, elements that are `AWS::NoValue` are counted.

**C83 Equal elements of lists are reported**

* `C83_violated` - **C83** fails

**C84 Policies of resources**

* `C84_violated`

**C85 Secret parameters in metadata**

* `C85_violated`

**C86 Defaults of parameters**

* `C86_violated`

**C87 One route table for each subnet**

* `C87_violated`

**C88 Schedule expressions**

* `C88_violated`

**C89 Actions of pipelines (E2541)**

* `C89_violated`

**C90 Documentation of the rules**

* `C90_violated` - (C90) without the heading the text grows with each run: the statement fails
* `C90_crash_violated` - (C90) if it raises, what followed the heading is lost

**C91 More than five targets of an event rule**

* `C91_violated` - C91: the rule reports four targets and one of two, though there are never more than five.

**C92 Faults of policy documents**

* `C92_violated` - C92: a key that does not exist is reported at a path that does not exist.

**C93 Properties required or unwanted because of another value**

* `C93_required_violated` - **C93** violated: E3017 takes a property written as `AWS::NoValue` for present.
* `C93_unwanted_violated` - **C93** violated: E3018 reports a property written as `AWS::NoValue`.

**C95 The rule on pipeline stages reports exactly the faults of the stages deployed**

* `C95_place_violated` - **C95** The statement about the places is false: stages are counted after those that are not deployed are removed.
* `C95_names_violated` - **C95** The statement about the names is false.

**C96 The rule on table attributes compares what each deployment defines with what its keys use**

* `C96_violated` - **C96** The statement is false: the keys of both branches are taken together.

**C97 Where the JSON decoder says things stand**

* `C97_violated` - The columns of keys are off by one.
* `C97_repeat_violated` - The error of `{"a":1,"a":2,"b":3}` is about `a` and stands at `b`.

**C98 Which configuration files count and what they may hold**

* `C98_settable_violated` - C98 fails: `include_experimental` is looked for and refused by the schema.
* `C98_named_violated` - C98 fails of a named file: one that is not there is taken as empty.

**C99 List options of the command line**

* `C99_comma_violated` - C99 fails of commas: the empty piece behind a last comma is a prefix of every id, so `-c I3042,` includes all rules.
* `C99_again_violated` - C99 fails of parsers: a default list is extended in place, so the parser remembers.

**C100 Names of record sets and their zones**

* `C100_boundary_violated` - C100 fails: the characters are compared, not the parts between dots.
* `C100_root_violated` - C100 fails of the root zone: all names in it are reported.

**C101 Secure parameters stand only where they may**

* `C101_lines_violated` - C101 fails: a text of several lines is not looked at.
* `C101_map_violated` - C101 fails: an `Fn::Sub` in an entry of a map is not looked at.
* `C101_join_violated` - C101 fails: the parts of an `Fn::Join` are not looked at.

**C102 Actions of policies exist**

* `C102_violated` - C102: an action whose text is in the middle of an action that exists is not reported.
* `C102_wildcards_violated` - C102: a star in the middle, and a question mark, are reported though they match an action.

**C103 References have the types that properties take**

* `C103_violated` - C103: what a module makes is not known, and yet its use is reported.

**C104 Listeners and load balancers**

* `C104_certificate_violated` - C104: a certificate that a condition takes away counts as one.
* `C104_violated` - C104: the findings of attributes stand at the security groups.

**C105 Resources that have a schema of their own**

* `C105_violated`

**C106 The size of JSON documents**

* `C106_violated` - C106: between the first and the last placeholder of a line there can be a text of any length.

**C108 Definitions of state machines**

* `C108_violated`

**C110 Zones that are written down, and references to resources with paths**

* `C110_violated` - C110: a path that is the root under all conditions is reported.

**C111 Versions of policies**

* `C111_violated` - C111: policies under a condition are not looked at.

**C112 Passwords are no texts and not shown**

* `C112_image_violated` - C112: a resource that an image refers to is reported as a parameter.
* `C112_violated` - C112: the text `false` passes.

**C113 Aliases of distributions and essential containers**

* `C113_violated` - C113: a star may be the beginning of any part.
* `C113_containers_violated` - C113: the text `false` is taken for true.

**C114 Devices, sources of security groups and domains for validation are judged exactly**

* `C114_violated` - C114: a reference to `AWS::NoValue` counts as a value.

**C115 Modules, serverless resources, packages, log filters and memory parameters are judged exactly**

* `C115_modules_violated` - C115: a bucket with tags whose condition is called like a module is taken for a module.
* `C115_filters_violated` - C115: the conditions of filters are not looked at.

**C116 References, joins, mapping keys and sections**

* `C116_ref_violated` - C116: a resource with the name `Ref` is taken for a reference.
* `C116_parameters_violated` - C116: a parameter with the name `Ref` is taken for a reference.

**C117 Classes of databases and failover of clusters**

* `C117_clusters_violated`

**C118 Outputs**

* `C118_outputs_violated` - C118: an output named by an integer, with a list as its value.
* `C118_values_violated` - C118: the first branch of a condition is its second argument, and is not looked at.

**C119 Declarations of parameters and resources**

* `C119_resources_violated` - C119: it is not: where the type of a resource is no text and its name is no text either, the path cannot be joined.

**C120 Update policies**

* `C120_update_violated` - C120: it is not right: the path of a boolean policy has its name twice.

**C122 Names in the sections of a template**

* `C122_names_violated` - **C122**: a name that ends with a line break is not found.

**C123 The rules that are loaded**

* `C123_loads_violated` - **C123**: a file whose name has another dot is not loaded.

**C124 The override file applies to every region and template alike, and a bad file ends the run**

* `C124_ends_violated` - **C124** fails: with an error of the device (number 5) the run goes on as if no override had been asked for.

**C125 Every well formed condition is loaded, and the table of comparisons is exact**

* `C125_loads_violated` - **C125** fails: one function with such an argument leaves the template without any condition, the good ones included.

**C127 From the rules' functions to the process status**

* `C127_report_setup_violated` - the full statement does not hold: when setting up some other rule fails, nothing is reported
* `C127_report_place_violated` - the full statement does not hold: a result without a place hides the other results of its call
* `C127_clean_violated` - the full statement does not hold: when setting up one rule fails, the status is 0 although another one has a finding

**C128 Status 0 and the specification**

* `C128_region_violated` - the full statement does not hold: the traversal goes by the declarations of us-east-1; what only the region of the template declares is not visited, and a property it requires may be missing

**C129 Status 0 and the names in a template**

* `C129_prefix_violated` - the full statement does not hold: with a parameter `Env`, a reference to `Environment` passes E1012

**C130 Status 0 and the form of the sections**

* `C130_text_violated` - the full statement does not hold: a parameter that is a text passes

**C131 Status 0 and the groups of properties**

* `C131_empty_violated` - the full statement does not hold: an object that is left without properties is passed over

**C132 Status 0 means within the limits and everything used**

* `C132_text_violated` - the full statement does not hold: when a parameter is a text, the values of the others are not looked at
* `C132_shadow_violated` - the full statement does not hold either for what is used: a variable that an `Fn::Sub` defines itself counts as a use of the parameter

**C133 Status 0 and properties that depend on the value of another**

* `C133_novalue_violated` - the full statement does not hold: a required property written as `AWS::NoValue` counts as present

**C134 Status 0 and the rules on particular resources**

* `C134_text_violated` - the full statement does not hold: when a rule of one group is a text, those of the others are not looked at

**C135 Status 0 and the calls of functions**

* `C135_zones_violated` - C135 fails as it stands: the zones of a list of regions pass.
* `C135_select_violated` - C135 fails as it stands: a Boolean is taken for an index.

**C136 Status 0 and the declarations**

* `C136_text_violated` - C136 fails as it stands: mappings that are a text are left to another rule, and the failure of E7002 is not shown.

**C137 Status 0 and the properties of particular types**

* `C137_object_violated` - C137 fails as it stands: the failure of E3027 on an expression that is an object is not shown.

**C138 Status 0 and what properties use**

* `C138_condition_violated` - C138 fails as it stands: W2030 says nothing of a resource with a condition.

**C139 Status 0 and the remaining rules of whole templates**

* `C139_inputs_violated` - **C139** fails as it stands: E2541 does not see that the action which makes what another takes runs at the same time.

**C140 Status 0 with the informational rules leaves room below every limit**

* `C140_text_violated` - the full statement does not hold: when a parameter is a text, the values of the others are not looked at

**C141 Drawing the graph shows the dependencies and does not change the report**

* `C141_stdin_violated` - the full statement does not hold: started as a module on the standard input, the program ends with status 0 although there is an error in the template
* `C141_text_violated` - the full statement does not hold either for a file: a resource that is a text is an error of the template, but with the graph the program fails

**C143 Update of the IAM policies**

* `C143_torn_violated` - **C143** An update that is stopped at the wrong moment leaves an empty file.

**C144 After status 0 no event rule of a template has more than five targets**

* `C144_calls_violated` - C144 fails as it stands: targets that are calls are not counted.

**C146 The updates of the regions by a pool of processes do not disturb one another**

* `C146_mkdir_violated` - C146 fails where the directory is not there at the start: both processes find that it is missing, and the one that makes it second fails, though by itself it would have brought its region up to date.

## Axioms of each theorem

As printed by `#print axioms`. No theorem depends on anything but `propext`, `Classical.choice` and `Quot.sound`.

* none: `C43_error_violated`, `C43_patches_violated`, `C146_others`
* Classical.choice, Quot.sound, propext: `C01_enabled_iff`, `C01_enabled_total`, `C01_mandatory_beats_ignore`, `C01_empty_ignore_inert`, `C01_mandatory_no_resurrection`, `C02_active_rules`, `C02_history_independent`, `C03_default_on`, `C03_opt_in`, `C04_options_violated`, `C04_options_partial`, `C04_not_mentioned`, `C05_isolation_violated`, `C05_isolation_partial`, `C05_isolation_no_crash`, `C05_findings_kept`, `C06_unique_ordered_complete`, `C07_filter_exact`, `C07_directives_violated`, `C07_directives_partial`, `C07_mandatory_protected`, `C07_other_rule_unaffected`, `C07_order_irrelevant`, `C07_directive_table`, `C08_other_resource_violated`, `C08_other_resource_partial`, `C09_exit_code`, `C09_zero_iff`, `C09_order_multiplicity`, `C09_union`, `C10_sorted_report`, `C11_swallowed_violated`, `C11_every_exception_lost`, `C11_setup_failure_partial`, `C12_regions`, `C13_transform_short_circuit`, `C13_rules_not_run`, `C13_rules_run`, `C14_history_violated`, `C14_history_partial`, `C15_regions`, `C15_regions_default`, `C16_parse_error_violated`, `C16_mandatory_active_partial`, `C17_template_whitelist`, `C17_not_settable`, `C18_idempotent`, `C19_parse_plain`, `C19_rejected_exits`, `C19_arguments_accumulate`, `C19_misread_violated`, `C20_selection`, `C20_none`, `C20_once_violated`, `C20_once_partial`, `C22_complete_partial`, `C22_five_violated`, `C22_two_expressions`, `C23_sound_partial`, `C23_two_expressions_violated`, `C24_agrees_partial`, `C24_literals_violated`, `C24_booleans_violated`, `C25_missing_violated`, `C25_request_partial`, `C25_load_partial`, `C26_order_independent`, `C28_root_violated`, `C28_list_item_violated`, `C28_location_partial`, `C28_last_element`, `C28_no_lists`, `C28_position`, `C29_null_branch_violated`, `C29_values_partial`, `C29_values_exact`, `C29_null_raises`, `C30_items_safe`, `C30_items_safe_once`, `C30_cleaned_to_noValue_violated`, `C30_never_noValue_partial`, `C30_list_items_safe`, `C30_get_safe`, `C31_met_on_path`, `C31_available_partial`, `C31_deployment_covered_partial`, `C31_report_real_partial`, `C31_false_branch_violated`, `C31_contradiction_violated`, `C32_nested_violated`, `C32_root_violated`, `C32_null_violated`, `C32_project_partial`, `C32_deep_partial`, `C32_no_if_left_partial`, `C32_deep_no_if_left`, `C32_unchanged`, `C32_objects_partial`, `C32_deep_objects_partial`, `C32_deep_no_scenarios`, `C32_deployment_covered_partial`, `C32_novalue_violated`, `C33_reported_partial`, `C33_no_false_alarm`, `C33_exact_partial`, `C33_prefix_violated`, `C33_number_violated`, `C34_document_decodes`, `C34_round_trip`, `C34_model_total`, `C35_document_rejected`, `C35_never_decodes`, `C36_tags`, `C36_null_partial`, `C36_null_anywhere_partial`, `C36_duplicate_partial`, `C36_equal_keys_partial`, `C36_distinct_accepted`, `C36_duplicate_violated`, `C36_violated`, `C36_short_form_partial`, `C36_short_violated`, `C36_getatt_violated`, `C37_total_partial`, `C37_reader_released`, `C37_second_file_violated`, `C37_unhashable_violated`, `C37_getatt_violated`, `C37_faithful`, `C37_empty_document`, `C37_yaml_error_place`, `C37_no_value_place`, `C37_construction_error_place`, `C37_violated`, `C37_unreadable_place`, `C38_merge_fails_iff`, `C38_set_leaves`, `C38_set_idempotent`, `C38_patterns_partial`, `C38_dot_violated`, `C40_findings_are_cycles`, `C40_reported_iff_partial`, `C40_violated`, `C41_idempotent`, `C41_rest_untouched`, `C41_properties_untouched_partial`, `C41_s3_untouched_partial`, `C41_local_replaced_partial`, `C41_inline_violated`, `C41_application_violated`, `C41_function_gains_reference`, `C41_alias_parameters`, `C41_alias_kinds`, `C42_parseable_produced_iff`, `C42_parseable_lines_partial`, `C42_parseable_count_partial`, `C42_parseable_recoverable_partial`, `C42_message_exact`, `C42_violated`, `C42_colon_violated`, `C42_json`, `C43_exactly_when`, `C43_new_version_partial`, `C43_uninterrupted_partial`, `C44_path_correct`, `C44_once`, `C44_sound_partial`, `C44_complete_partial`, `C44_condition_violated`, `C44_map_violated`, `C44_list_type_violated`, `C44_no_properties_violated`, `C44_no_value_violated`, `C44_list_branch_violated`, `C45_name_limit_partial`, `C45_name_notice_partial`, `C45_number_partial`, `C45_never_both`, `C45_numeric_key_violated`, `C45_template_description`, `C45_attributes_partial`, `C45_output_description_partial`, `C45_values_partial`, `C46_listing`, `C46_columns`, `C46_produced`, `C46_totals`, `C47_failure_text`, `C47_failures`, `C47_once_partial`, `C47_cases`, `C47_parse_error_violated`, `C47_violated`, `C47_no_rules`, `C48_violated`, `C48_ascii_partial`, `C48_sound_partial`, `C49_exact_partial`, `C49_no_dot_violated`, `C49_stack_set_violated`, `C49_nested_violated`, `C49_no_resource_violated`, `C49_star_violated`, `C49_short`, `C49_computed`, `C49_structure`, `C50_mandatory_violated`, `C50_experimental_violated`, `C50_listed_only_violated`, `C50_listed_exact`, `C50_run_exact`, `C50_same_partial`, `C50_list_only`, `C50_files`, `C51_module_violated`, `C51_empty_template_violated`, `C51_severity_violated`, `C51_ignored_violated`, `C51_zero_partial`, `C51_completed`, `C51_failure`, `C52_dispatch_partial`, `C52_transform_violated`, `C52_null_branch_violated`, `C52_resources`, `C53_exact_partial`, `C53_empty_if_violated`, `C53_untyped_violated`, `C54_names_partial`, `C54_place_violated`, `C54_each_use_violated`, `C55_accepts_only_json_partial`, `C55_accepts_exactly_partial`, `C55_unambiguous`, `C55_nan_violated`, `C55_escape_violated`, `C56_exact_partial`, `C56_sound_partial`, `C56_unique`, `C56_empty_braces_violated`, `C56_nested_violated`, `C57_exact_partial`, `C57_reported_partial`, `C57_empty_sub_violated`, `C57_shadow_violated`, `C58_exact_partial`, `C58_empty_violated`, `C59_unneeded_partial`, `C59_unused_partial`, `C59_no_text_violated`, `C60_reports`, `C60_lists`, `C60_complete_partial`, `C60_sound_partial`, `C60_exact_partial`, `C60_conditional_violated`, `C60_unreachable_violated`, `C60_text_violated`, `C60_nested_partial`, `C60_null`, `C60_match`, `C60_custom_partial`, `C60_custom_type_violated`, `C61_at_least_one_sound`, `C61_at_least_one_complete_partial`, `C61_only_one_sound_partial`, `C61_only_one_complete_partial`, `C61_empty_violated`, `C61_only_one_undefined_violated`, `C62_exclusive_sound_partial`, `C62_exclusive_complete_partial`, `C62_inclusive_sound_partial`, `C62_inclusive_complete_partial`, `C62_root_if_violated`, `C62_root_if_unsound_violated`, `C62_text_branch_violated`, `C63_complete_partial`, `C63_places`, `C63_sound_partial`, `C63_violated`, `C63_hashable`, `C63_crash_violated`, `C64_exact`, `C64_missing_partial`, `C64_real_partial`, `C64_literals_violated`, `C65_exact_partial`, `C65_sound_violated`, `C65_complete_violated`, `C66_lookup_partial`, `C66_module_violated`, `C66_prefix_violated`, `C67_conditions`, `C67_lists`, `C67_equals_partial`, `C67_sound_partial`, `C67_complete_partial`, `C67_number_violated`, `C67_name_violated`, `C67_operand_violated`, `C67_ref_raises`, `C68_truth_partial`, `C68_circle_violated`, `C69_mappings`, `C69_find_partial`, `C69_keys_partial`, `C69_keys_violated`, `C69_violated`, `C69_keys_raises`, `C70_lookup_partial`, `C70_empty_map_violated`, `C70_empty_key_violated`, `C71_exact_partial`, `C71_module_violated`, `C71_first_violated`, `C71_ref_violated`, `C71_path_violated`, `C72_select_partial`, `C72_select_raises`, `C72_select_violated`, `C72_split_violated`, `C72_zones_partial`, `C73_exact_partial`, `C73_raises`, `C73_parts_violated`, `C73_module_violated`, `C74_cidr_partial`, `C74_cidr_break`, `C74_cidr_violated`, `C74_ipv4_exact`, `C74_ipv4_accepts`, `C74_ipv4_violated`, `C74_alphanumeric`, `C74_domain`, `C74_txt`, `C74_validations`, `C75_reports`, `C75_exact_partial`, `C75_two_reported`, `C75_violated`, `C75_raises`, `C75_mask_violated`, `C75_odd_accepted`, `C76_exact_partial`, `C76_places_partial`, `C76_index_violated`, `C76_branch_violated`, `C76_violated`, `C77_caa`, `C77_mx_partial`, `C77_mx_raises`, `C77_mx_violated`, `C77_record_partial`, `C77_record_raises`, `C77_recordset_partial`, `C77_rule_partial`, `C78_prim`, `C78_exact_partial`, `C78_rule_partial`, `C78_nested_place`, `C78_map_branch`, `C78_att_raises`, `C78_objects_accepted`, `C78_noValue_reported`, `C78_branch_scalar`, `C78_type_raises`, `C78_violated`, `C79_reports_partial`, `C79_exact_partial`, `C79_place`, `C79_raises`, `C79_violated`, `C79_globals_twice`, `C80_value_partial`, `C80_reports_partial`, `C80_violated`, `C80_truth_accepted`, `C80_fraction_accepted`, `C80_long_fraction`, `C80_condition_silent`, `C80_no_map`, `C81_allowed`, `C81_pattern`, `C81_length_partial`, `C81_number_partial`, `C81_condition_silent`, `C81_zero_unchecked`, `C81_violated`, `C82_sound_partial`, `C82_complete_partial`, `C82_violated`, `C82_gap_with_condition`, `C83_forbidden_sound`, `C83_allowed_sound`, `C83_forbidden_lists`, `C83_allowed_lists`, `C83_branches_partial`, `C83_novalue_reported`, `C83_condition_missed`, `C83_violated`, `C83_key_order`, `C84_policies_partial`, `C84_violated`, `C84_stateful`, `C84_explicit`, `C85_exact`, `C85_reports`, `C85_sound`, `C85_complete_partial`, `C85_list_missed`, `C85_violated`, `C86_exact`, `C86_plain_partial`, `C86_text_missed`, `C86_zero_missed`, `C86_list_reported`, `C86_number_reported`, `C86_violated`, `C86_truth_values`, `C87_exact`, `C87_sound_partial`, `C87_unconditional`, `C87_complete_partial`, `C87_conditions_missed`, `C87_branches_reported`, `C87_violated`, `C87_absent_reported`, `C87_text_attribute`, `C88_exact`, `C88_sound`, `C88_complete_partial`, `C88_unit_missed`, `C88_tail_missed`, `C88_violated`, `C88_rule`, `C88_number_raises`, `C89_exact`, `C89_inputs`, `C89_sound_partial`, `C89_exact_partial`, `C89_order_reported`, `C89_order_missed`, `C89_violated`, `C89_version_missed`, `C89_no_stages_raises`, `C89_no_actions_raises`, `C89_list_raises`, `C89_scalars_pass`, `C89_branches_reported`, `C89_untyped_lost`, `C89_stops`, `C90_table`, `C90_idempotent_partial`, `C90_rest_dropped`, `C90_violated`, `C90_raises_iff`, `C90_crash_violated`, `C90_rules`, `C91_reported`, `C91_complete`, `C91_plain_partial`, `C91_deployed`, `C91_violated`, `C91_nested_reported`, `C91_repeated`, `C91_dotted_name`, `C92_document_exact`, `C92_document_ok_iff`, `C92_exact`, `C92_by_type`, `C92_places_partial`, `C92_violated`, `C92_lists_raise`, `C92_policy_missed`, `C92_effect_missed`, `C92_version_reported`, `C93_triggered`, `C93_required_sound`, `C93_unwanted_sound_partial`, `C93_unwanted_complete`, `C93_required_complete_partial`, `C93_value`, `C93_unknown_raises`, `C93_reference`, `C93_short_raises`, `C93_choice_missed`, `C93_required_violated`, `C93_unwanted_violated`, `C94_not_asked`, `C94_raises_iff`, `C94_translated`, `C94_findings`, `C94_silent_iff`, `C94_failure_reported`, `C95_exact`, `C95_silent_iff`, `C95_pipeline`, `C95_scenarios`, `C95_place_partial`, `C95_place_violated`, `C95_dropped`, `C95_dropped_odd`, `C95_names_violated`, `C95_raises`, `C96_set_partial`, `C96_message`, `C96_sound_partial`, `C96_complete_partial`, `C96_violated`, `C96_missed`, `C96_silent`, `C97_erased`, `C97_marks`, `C97_marks_any`, `C97_decodes`, `C97_keys`, `C97_one_line`, `C97_objects`, `C97_lists`, `C97_template`, `C97_error_place`, `C97_error_shows`, `C97_reported`, `C97_error_width`, `C97_repeat_partial`, `C97_violated`, `C97_repeat_violated`, `C98_accepted`, `C98_error`, `C98_project`, `C98_custom`, `C98_both`, `C98_values`, `C98_loaded`, `C98_refused`, `C98_only`, `C98_custom_only`, `C98_typed`, `C98_settable_violated`, `C98_settable_partial`, `C98_ignored`, `C98_named_violated`, `C98_same`, `C99_pieces`, `C99_value`, `C99_absent`, `C99_grouping`, `C99_rules`, `C99_comma_violated`, `C99_comma_partial`, `C99_ignore_comma`, `C99_again_violated`, `C99_again_partial`, `C99_options`, `C100_sound`, `C100_complete_partial`, `C100_in_zone_partial`, `C100_empty_raises`, `C100_boundary_violated`, `C100_root_violated`, `C101_text`, `C101_reports_partial`, `C101_lines_violated`, `C101_map_violated`, `C101_join_violated`, `C101_sub_raises`, `C102_table`, `C102_trailing`, `C102_leading`, `C102_action_exact`, `C102_action_sound`, `C102_exact_partial`, `C102_sound_partial`, `C102_not_json`, `C102_violated`, `C102_wildcards_violated`, `C102_notaction_missed`, `C102_condition_missed`, `C102_raises`, `C103_exact_partial`, `C103_module_reported`, `C103_violated`, `C103_ref_attribute_raises`, `C103_stack_raises`, `C103_section_kinds`, `C104_listener`, `C104_v2`, `C104_v1`, `C104_rule`, `C104_listener_missed`, `C104_certificate_violated`, `C104_scenarios`, `C104_exact`, `C104_place_partial`, `C104_violated`, `C105_syntax`, `C105_exact_partial`, `C105_repeated`, `C105_runs`, `C105_report`, `C105_home_raises`, `C105_missed`, `C105_violated`, `C105_unnamed_raises`, `C106_text`, `C106_lines`, `C106_measured`, `C106_not_longer`, `C106_no_functions`, `C106_scenarios`, `C106_exact_partial`, `C106_sound`, `C106_plain`, `C106_violated`, `C106_no_limit_raises`, `C106_missing_raises`, `C106_empty_sub_raises`, `C107_entries`, `C107_names`, `C107_groups_raise`, `C107_text_group`, `C108_state`, `C108_definition`, `C108_exact_partial`, `C108_map_passes`, `C108_parallel_parameters`, `C108_fail_next`, `C108_violated`, `C108_missing_sound`, `C108_not_inside`, `C108_list_raises`, `C108_null_states_raise`, `C108_empty_sub_raises`, `C108_number_raises`, `C109_over`, `C109_aged`, `C109_one_of_both`, `C109_later`, `C110_zones`, `C110_refs_partial`, `C110_violated`, `C111_document`, `C111_policies_partial`, `C111_violated`, `C111_null_raises`, `C111_other_types`, `C112_dynamic`, `C112_ssm`, `C112_password`, `C112_image_partial`, `C112_image_violated`, `C112_violated`, `C112_branches`, `C113_domain`, `C113_aliases`, `C113_braces_raise`, `C113_violated`, `C113_containers`, `C113_containers_violated`, `C113_format`, `C114_device`, `C114_devices`, `C114_name_raises`, `C114_violated`, `C114_ingress`, `C114_domains`, `C115_modules_partial`, `C115_modules_violated`, `C115_module_raises`, `C115_serverless`, `C115_packages`, `C115_other_types`, `C115_filters`, `C115_filters_violated`, `C115_filter_raises`, `C115_memory`, `C116_ref_violated`, `C116_conditions`, `C116_parameters_violated`, `C116_mappings`, `C116_mappings_raises`, `C116_sections`, `C117_sizes`, `C117_clusters_partial`, `C117_no_settings_raises`, `C117_reference_raises`, `C117_clusters_violated`, `C117_no_scenario_raises`, `C117_no_scenario_if`, `C117_no_scenario_plain`, `C118_outputs_partial`, `C118_name_raises`, `C118_required`, `C118_required_raises`, `C118_texts`, `C118_imports`, `C118_values_partial`, `C118_values_violated`, `C118_values_raises`, `C119_parameters`, `C119_parameters_raises`, `C119_types`, `C119_resources_violated`, `C119_resources_partial`, `C119_resources_raises`, `C120_update`, `C120_update_partial`, `C120_update_violated`, `C120_update_raises`, `C121_allowed`, `C121_pattern`, `C121_raises`, `C121_section_kinds`, `C122_names`, `C122_names_partial`, `C122_names_violated`, `C122_raises`, `C123_classes`, `C123_loads_partial`, `C123_loads_violated`, `C123_dotted`, `C123_unreadable_raises`, `C123_source`, `C124_regions`, `C124_conflict_raises`, `C124_again`, `C124_templates`, `C124_ends_violated`, `C124_ends_partial`, `C124_json_no_exit`, `C124_shape`, `C124_formats`, `C125_load`, `C125_table`, `C125_loads_violated`, `C125_loads_partial`, `C125_transfer`, `C126_untouched`, `C126_files`, `C126_file_order`, `C126_botocore`, `C126_botocore_gone`, `C126_botocore_ok_iff`, `C126_process`, `C127_run`, `C127_report_partial`, `C127_report_setup_violated`, `C127_report_place_violated`, `C127_clean_partial`, `C127_clean_violated`, `C127_references_partial`, `C127_no_cycle_partial`, `C127_objects_partial`, `C128_required_partial`, `C128_primitives_partial`, `C128_allowed_partial`, `C128_patterns_partial`, `C128_lengths_partial`, `C128_numbers_partial`, `C128_region_violated`, `C128_typed_partial`, `C128_listed_partial`, `C128_matched_partial`, `C128_sized_partial`, `C128_bounded_partial`, `C129_refs_partial`, `C129_attributes_partial`, `C129_subs_partial`, `C129_conditions_partial`, `C129_dependsOn_partial`, `C129_deployed_partial`, `C129_cycles_partial`, `C129_lookups_partial`, `C129_truth_partial`, `C129_prefix_violated`, `C130_resources`, `C130_parameters_partial`, `C130_outputs_partial`, `C130_refs_partial`, `C130_text_violated`, `C131_satisfiable`, `C131_at_least_one_partial`, `C131_only_one_partial`, `C131_exclusive_partial`, `C131_inclusive_partial`, `C131_sizes_partial`, `C131_repeats_partial`, `C131_branches_partial`, `C131_tables_partial`, `C131_empty_violated`, `C132_names`, `C132_numbers`, `C132_resources`, `C132_description`, `C132_size`, `C132_values_partial`, `C132_outputs_partial`, `C132_attributes_partial`, `C132_parameters_used_partial`, `C132_conditions_used_partial`, `C132_mappings_used_partial`, `C132_limits_partial`, `C132_text_violated`, `C132_shadow_violated`, `C133_begins`, `C133_stream`, `C133_queue`, `C133_aurora`, `C133_serverful`, `C133_unwanted`, `C133_required_partial`, `C133_starting_position_partial`, `C133_queue_start`, `C133_cluster`, `C133_instance`, `C133_throughput`, `C133_alarm_partial`, `C133_novalue_violated`, `C134_policies`, `C134_both`, `C134_serverless`, `C134_conditions`, `C134_mappings`, `C134_update_partial`, `C134_essential_partial`, `C134_aliases_partial`, `C134_devices_partial`, `C134_ingress_partial`, `C134_filters_partial`, `C134_listeners_partial`, `C134_secrets_partial`, `C134_routes_partial`, `C134_text_violated`, `C135_if`, `C135_select_partial`, `C135_split`, `C135_import`, `C135_base64`, `C135_zones_partial`, `C135_not`, `C135_cidr_partial`, `C135_counts_partial`, `C135_join_partial`, `C135_needed_partial`, `C135_unneeded`, `C135_used`, `C135_zones_violated`, `C135_select_violated`, `C136_defaults_partial`, `C136_parameters`, `C136_unique`, `C136_entries_partial`, `C136_names_partial`, `C136_values_partial`, `C136_imports`, `C136_description`, `C136_passwords_partial`, `C136_obsolete_partial`, `C136_exist_partial`, `C136_mappings_partial`, `C136_modules_partial`, `C136_text_violated`, `C137_schedule_partial`, `C137_machines_partial`, `C137_versions_partial`, `C137_policy_versions_partial`, `C137_packages_partial`, `C137_memory_partial`, `C137_zones_partial`, `C137_sub_zones_partial`, `C137_roles_partial`, `C137_policies_partial`, `C137_actions_partial`, `C137_runtimes_partial`, `C137_domains_partial`, `C137_records_partial`, `C137_tables_partial`, `C137_clusters_partial`, `C137_object_violated`, `C138_values_partial`, `C138_patterns_partial`, `C138_secrets_partial`, `C138_documents_partial`, `C138_parameters_partial`, `C138_resources_partial`, `C138_attributes_partial`, `C138_condition_violated`, `C139_stages_exact`, `C139_stages_partial`, `C139_actions_partial`, `C139_properties_partial`, `C139_records_partial`, `C139_databases_partial`, `C139_images_partial`, `C139_schemas_partial`, `C139_inputs_violated`, `C140_names`, `C140_numbers`, `C140_description`, `C140_size`, `C140_values_partial`, `C140_outputs_partial`, `C140_attributes_partial`, `C140_stateful`, `C140_joins`, `C140_repeats_partial`, `C140_room_partial`, `C140_text_violated`, `C141_same_edges`, `C141_drawn_partial`, `C141_file_partial`, `C141_raised`, `C141_unchanged_partial`, `C141_stdin_violated`, `C141_text_violated`, `C142_get`, `C143_content`, `C143_failed`, `C143_done`, `C143_states_partial`, `C143_torn_violated`, `C144_replay`, `C144_call`, `C144_branches`, `C144_targets_partial`, `C144_calls_violated`, `C145_silent`, `C145_exact`, `C145_sections`, `C145_base`, `C146_same`, `C146_ends`, `C147_found`, `C147_status`, `C147_tells`, `C147_wellMade`, `C148_newVersion`, `C148_mended`, `C148_directory`, `C148_next`, `C149_found`, `C149_status`, `C149_tells`, `C149_sections`, `C150_tells`, `C150_bounds`, `C151_tells`, `C151_linked`, `C152_status`, `C152_number`, `C153_unconfigured`, `C153_status`, `C154_unconfigured`, `C154_bits`, `C154_union`, `C154_order`, `C155_grows`, `C155_same`, `C155_disabled`, `C155_options`, `C156_unconfigured`, `C156_alone`, `C156_function`, `C156_order`, `C157_bad`
* Quot.sound, propext: `C15_include_checks`, `C18_project_wins`, `C18_user_kept`, `C18_nothing_else`, `C19_malformed_rejected`, `C21_exactly_requested`, `C21_unknown`, `C21_distinct`, `C27_search_exact`, `C27_globals_violated`, `C27_search_partial`, `C30_get_safe_absent`, `C38_merge_leaves`, `C38_merge_idempotent`, `C39_value_partial`, `C39_annotated`, `C39_idempotent`, `C39_violated`, `C44_registered`, `C45_template_size`, `C60_required_names`, `C72_if_partial`, `C72_if_raises`, `C72_if_violated`, `C72_split_reports`, `C72_split_partial`, `C72_import`, `C72_base64`, `C72_zones_violated`, `C72_not`, `C81_number_value`, `C84_kinds`, `C84_both`, `C96_choice_raises`, `C96_unnamed`, `C97_nodes`, `C105_loaded`, `C107_unique`, `C107_null_raises`, `C107_unique_list`, `C108_first`, `C109_null_parameter_raises`, `C110_null_raises`, `C110_path_only`, `C114_ingress_raises`, `C116_ref_partial`, `C116_join`, `C116_join_raises`, `C116_parameters_partial`, `C117_sizes_raises`, `C118_outputs_raises`, `C118_description`, `C126_patch`, `C126_skipped`, `C126_last`, `C128_declared`, `C128_entry`, `C128_named`, `C128_types`, `C128_followed`, `C128_resources`, `C138_refs_read`, `C138_refs_said`, `C138_attributes_read`, `C138_attributes_said`, `C138_documents_read`, `C142_copy`, `C142_items`, `C142_list`, `C142_values`, `C142_get_values`, `C143_text`, `C143_no_words`, `C144_resources`, `C146_any`, `C146_isolated_partial`, `C146_regions`, `C146_mkdir_violated`, `C148_attempts`
* propext: `C15_precedence`, `C15_options`, `C25_only_attribute_error`, `C43_stale_violated`, `C43_stale_forever`, `C43_torn_violated`, `C43_untagged_violated`, `C52_places`, `C60_reached`, `C103_whole`, `C105_no_directory`, `C106_between`, `C109_object_raises`, `C115_no_resources`, `C118_outputs_violated`, `C123_sources`, `C123_sources_fail`, `C131_groups`, `C138_governed`, `C144_distinct`
