{"id": "C01", "title": "Rule enablement decision", "statement": "A rule takes part in a run exactly when (it is not experimental or experimental rules were requested) and some include entry is a prefix of its id and (some mandatory entry is a prefix of its id or no non-empty ignore entry is a prefix of its id). In particular a mandatory entry beats every ignore entry, an empty ignore entry suppresses nothing, and a mandatory entry never resurrects an experimental or not-included rule.", "quantifier": "all rule ids, experimental flags and all include/ignore/mandatory lists", "why_tests_cant": "The decision is over unbounded lists of arbitrary prefixes; tests sample a handful of ids.", "anchors": ["src/cfnlint/rules/__init__.py:CloudFormationLintRule.is_enabled"]}
{"id": "C02", "title": "Active rule set after any history", "statement": "After any sequence of registering rules, extending with several rules and re-configuring the collection, the rules that will run are exactly the registered ones enabled under the most recent configuration, each as often as registered and in registration order; no earlier configuration influences which rules run.", "quantifier": "all finite histories of register/extend/configure operations from an empty collection", "why_tests_cant": "Histories are unbounded; one collection is reused for every template of a run.", "anchors": ["src/cfnlint/rules/__init__.py:RulesCollection.configure", "src/cfnlint/rules/__init__.py:RulesCollection.register", "src/cfnlint/rules/__init__.py:RulesCollection.extend"]}
{"id": "C03", "title": "Warnings and errors are on by default, informational rules are opt-in", "statement": "With any include list, a non-experimental rule whose id starts with W or E is active unless a non-empty ignore entry is a prefix of its id and no mandatory entry is; a rule whose id starts with neither W nor E is inactive unless an explicitly supplied include entry is a prefix of its id.", "quantifier": "all include, ignore, mandatory lists and all rule ids", "why_tests_cant": "Universally quantified over user configuration.", "anchors": ["src/cfnlint/rules/__init__.py:RulesCollection.configure", "src/cfnlint/config.py:ConfigMixIn.include_checks"]}
{"id": "C04", "title": "Rule options come only from the current template's configuration", "statement": "When several templates are linted in one run, the option values each rule runs with are its defaults overridden by the configuration in force for the current template; options set for an earlier template do not leak into a later one.", "quantifier": "all histories of configurations applied to the cached collection", "why_tests_cant": "Depends on the history of templates already processed; unit tests start from a fresh collection.", "anchors": ["src/cfnlint/rules/__init__.py:RulesCollection.configure", "src/cfnlint/rules/__init__.py:CloudFormationLintRule.configure", "src/cfnlint/core.py:get_template_rules"]}
{"id": "C05", "title": "A crashing rule does not hide other rules' findings", "statement": "If one rule raises while checking a template, every finding produced by the other rules is still reported, and the failure itself is reported as one E0002 finding (nothing for attribute errors on template nodes).", "quantifier": "all rule sets, all sets of crashing rules and all exception kinds, with and without E0002 enabled", "why_tests_cant": "Rules and the way they fail are arbitrary; interaction with enablement configuration.", "anchors": ["src/cfnlint/rules/__init__.py:RulesCollection.run_check", "src/cfnlint/rules/__init__.py:RulesCollection.run"]}
{"id": "C06", "title": "Reported findings are unique, in order and complete up to equality", "statement": "The reported list contains no two findings equal in (line, column, rule id, message); it is a subsequence of the raw findings; every raw finding that is not suppressed by a directive has an equal finding in the report.", "quantifier": "all lists of raw findings and all directive tables", "why_tests_cant": "The interaction of de-duplication with suppression over arbitrary lists.", "anchors": ["src/cfnlint/runner.py:Runner.run", "src/cfnlint/rules/__init__.py:Match.__eq__"]}
{"id": "C07", "title": "Directives suppress exactly the findings in their scope", "statement": "A finding is dropped only if its rule id is named exactly by a resource-level ignore directive, no mandatory entry is a prefix of the id, and the directive's resource covers the finding's position; conversely every finding so covered is dropped. The order of directives is irrelevant.", "quantifier": "all findings, directive tables and mandatory lists", "why_tests_cant": "Position arithmetic over arbitrary line/column values and lists of directives.", "anchors": ["src/cfnlint/runner.py:Runner.run", "src/cfnlint/template.py:Template.get_directives"]}
{"id": "C08", "title": "A directive on one resource never hides a finding on another", "statement": "If a resource carries an ignore directive, findings whose position lies outside the resource's own span are still reported.", "quantifier": "all resource spans and all finding positions, including several resources on one source line", "why_tests_cant": "Requires all placements of spans; flow-style YAML/JSON puts several resources on one line.", "anchors": ["src/cfnlint/runner.py:Runner.run", "src/cfnlint/template.py:Template.get_directives"]}
{"id": "C09", "title": "Exit code encodes exactly the severities present", "statement": "The exit code is a bitmask: bit 8 is set iff some reported finding is informational, bit 4 iff some is a warning, bit 2 iff some is an error, and no other bit is ever set; it is 0 iff no finding has one of these severities. It does not depend on the order or multiplicity of findings and never loses a bit when findings are added.", "quantifier": "all lists of findings", "why_tests_cant": "All subsets/orders of severities over unbounded lists.", "anchors": ["src/cfnlint/core.py:get_exit_code", "src/cfnlint/rules/__init__.py:CloudFormationLintRule.severity"]}
{"id": "C10", "title": "Final report is sorted and loses nothing", "statement": "When the engine completes, the findings returned for a file are a permutation of those that survived filtering, sorted by (file, line, rule id), with ties kept in discovery order.", "quantifier": "all lists of findings", "why_tests_cant": "Sorting/stability over arbitrary lists.", "anchors": ["src/cfnlint/core.py:run_checks"]}
{"id": "C11", "title": "An engine failure is never reported as a clean template", "statement": "If checking a template fails with an unexpected exception, the run does not return an empty list of findings with exit code 0.", "quantifier": "all executions of a check including those raising at any point", "why_tests_cant": "Requires reasoning about all crash points; the failing path is a constructed-but-not-raised exception.", "anchors": ["src/cfnlint/core.py:run_checks", "src/cfnlint/core.py:get_exit_code"]}
{"id": "C12", "title": "Unsupported regions abort before any check", "statement": "If any requested region is not a supported region the run aborts with exit code 32 before checking; if all are supported it never aborts for that reason.", "quantifier": "all region lists", "why_tests_cant": "Set inclusion over arbitrary lists.", "anchors": ["src/cfnlint/core.py:run_checks"]}
{"id": "C13", "title": "Transform errors short-circuit", "statement": "If the serverless transform reports errors, exactly those errors are returned when E0001 is enabled and nothing otherwise, and no rule is run; if it reports none, the rules are run.", "quantifier": "all transform outcomes, rule configurations", "why_tests_cant": "Depends on configuration product and outcome of external transform.", "anchors": ["src/cfnlint/core.py:run_checks", "src/cfnlint/runner.py:Runner.transform"]}
{"id": "C14", "title": "Parse errors of a template depend only on that template and the global configuration", "statement": "Whether the parse error of a template is reported must not depend on the Metadata of templates linted before it in the same run.", "quantifier": "all sequences of templates", "why_tests_cant": "History dependence over sequences of templates.", "anchors": ["src/cfnlint/core.py:get_template_rules", "src/cfnlint/config.py:TemplateArgs.set_template_args"]}
{"id": "C15", "title": "Configuration precedence", "statement": "For every option, the effective value is the command-line value if truthy, else the template Metadata value if the option is template-settable and the value is truthy, else the config-file value if the option is file-settable and truthy, else the command-line default.", "quantifier": "all values of the three sources for all options", "why_tests_cant": "Product of three sources and option kinds.", "anchors": ["src/cfnlint/config.py:ConfigMixIn._get_argument_value"]}
{"id": "C16", "title": "Templates cannot weaken mandatory checks", "statement": "For a fixed command line and config file, no template content (Metadata configuration or resource-level directives) can disable or suppress a non-experimental W/E rule whose id has a mandatory prefix.", "quantifier": "all templates, all Metadata, all directive tables", "why_tests_cant": "Universally quantified over adversarial templates; spans configuration, enablement and filtering.", "anchors": ["src/cfnlint/config.py:ConfigMixIn.mandatory_checks", "src/cfnlint/rules/__init__.py:CloudFormationLintRule.is_enabled", "src/cfnlint/runner.py:Runner.run"]}
{"id": "C17", "title": "Template Metadata can only set whitelisted, well-typed options", "statement": "Configuration read from a template contains only ignore_checks, regions, append_rules, include_checks (lists), override_spec (string), ignore_bad_template (boolean) and configure_rules (map), each with exactly the value written in the Metadata; anything else is ignored.", "quantifier": "all template values", "why_tests_cant": "Arbitrary input values of arbitrary type.", "anchors": ["src/cfnlint/config.py:TemplateArgs.set_template_args"]}
{"id": "C18", "title": "Project configuration overrides user configuration", "statement": "In the merged configuration every key path present in the project file has the project's value; every key path of the user file not overridden keeps the user's value; there are no other keys. Merging is idempotent.", "quantifier": "all pairs of nested configurations", "why_tests_cant": "Recursive structures of unbounded depth.", "anchors": ["src/cfnlint/config.py:ConfigFileArgs.merge_config"]}
{"id": "C19", "title": "Rule option strings parse as written", "statement": "For all rule ids, option names and values free of separators, 'ID:key=value' items joined by commas parse to exactly the corresponding nested map with the last value winning; malformed items are rejected rather than silently misread.", "quantifier": "all strings", "why_tests_cant": "All strings; separators may occur anywhere.", "anchors": ["src/cfnlint/config.py:RuleConfigurationAction._parse_rule_configuration", "src/cfnlint/config.py:RuleConfigurationAction.__call__"]}
{"id": "C20", "title": "Template selection", "statement": "The list of templates to lint is sorted, contains no ignored template, contains every file matched by a requested pattern (or the pattern itself if it matches nothing) that is not ignored, and nothing else; each template is linted once.", "quantifier": "all pattern lists and file systems (glob as an arbitrary function)", "why_tests_cant": "Quantifies over file system contents.", "anchors": ["src/cfnlint/config.py:ConfigMixIn.templates", "src/cfnlint/config.py:ConfigMixIn._ignore_templates"]}
{"id": "C21", "title": "Scenario shape", "statement": "Every scenario returned for a list of condition names assigns a value to exactly the requested conditions; an unknown condition yields no scenario; no scenario is returned twice.", "quantifier": "all templates and all lists of condition names", "why_tests_cant": "Arbitrary condition trees.", "anchors": ["src/cfnlint/conditions.py:Conditions.get_scenarios"]}
{"id": "C22", "title": "Scenario completeness", "statement": "For every assignment of parameter/function values permitted by AllowedValues, the vector of truth values of the requested conditions under that assignment is one of the returned scenarios.", "quantifier": "all condition definitions, all requested lists, all assignments", "why_tests_cant": "Infinite assignments; arbitrary nesting of And/Or/Not/Condition.", "anchors": ["src/cfnlint/conditions.py:Conditions.get_scenarios", "src/cfnlint/conditions.py:Condition.test"]}
{"id": "C23", "title": "Scenario soundness", "statement": "Every returned scenario is the truth vector of some permitted assignment of values (when the requested conditions share an Equals operand).", "quantifier": "all condition definitions and requested lists", "why_tests_cant": "Existential over assignments for each of arbitrarily many scenarios.", "anchors": ["src/cfnlint/conditions.py:Conditions.get_scenarios"]}
{"id": "C24", "title": "Condition evaluation agrees with CloudFormation semantics", "statement": "Evaluating a parsed condition against a scenario gives the same result as the CloudFormation meaning of the condition (And, Or, Not, Equals, named references) under the corresponding assignment.", "quantifier": "all well-formed acyclic condition definitions, all assignments", "why_tests_cant": "Unbounded nesting and reference chains.", "anchors": ["src/cfnlint/conditions.py:Condition.process_condition", "src/cfnlint/conditions.py:Condition.test", "src/cfnlint/conditions.py:Equals.test"]}
{"id": "C25", "title": "Loading conditions never fails", "statement": "Building the condition model succeeds for every template, including malformed and cyclic conditions; requesting scenarios for conditions with a malformed part never raises either.", "quantifier": "all template values", "why_tests_cant": "Arbitrary malformed input.", "anchors": ["src/cfnlint/conditions.py:Conditions.__init__", "src/cfnlint/conditions.py:Condition.__init__"]}
{"id": "C26", "title": "Scenarios do not depend on hash ordering", "statement": "The set of scenarios returned does not depend on the iteration order of Python sets (which varies between processes).", "quantifier": "all orders of enumeration of the sets involved", "why_tests_cant": "Order is randomised per process; a test observes one order.", "anchors": ["src/cfnlint/conditions.py:Conditions.get_scenarios"]}
{"id": "C27", "title": "Deep key search is exact", "statement": "Searching the template for a key returns exactly the occurrences of that key: each result's path leads from the root to its value and ends in the key, every occurrence is returned exactly once.", "quantifier": "all template values and keys", "why_tests_cant": "Trees of arbitrary depth and shape.", "anchors": ["src/cfnlint/template.py:Template.search_deep_keys", "src/cfnlint/template.py:Template._search_deep_keys"]}
{"id": "C28", "title": "Reported locations are the most specific available", "statement": "The location attached to a finding is that of the last path element when it carries one, otherwise of the deepest enclosing element that does; following the path never fails for paths that exist in the template.", "quantifier": "all templates and all paths", "why_tests_cant": "Arbitrary paths incl. those that do not exist.", "anchors": ["src/cfnlint/template.py:Template.get_location_yaml", "src/cfnlint/template.py:Template._loc"]}
{"id": "C29", "title": "Conditional values carry correct paths", "statement": "Every value returned when resolving a property through Fn::If is found in the template at the returned path, is neither an Fn::If nor a reference to AWS::NoValue, and every branch value of the nested Fn::Ifs is returned.", "quantifier": "all property values with arbitrarily nested Fn::If", "why_tests_cant": "Unbounded nesting.", "anchors": ["src/cfnlint/template.py:Template.get_values", "src/cfnlint/template.py:Template.get_condition_values"]}
{"id": "C30", "title": "items_safe enumerates exactly the reachable objects", "statement": "Iterating an object safely yields one cleaned object per non-Fn::If leaf of the Fn::If tree, with the path at which it stands, and never a NoValue reference; only values of the requested type are yielded.", "quantifier": "all objects", "why_tests_cant": "Unbounded nesting.", "anchors": ["src/cfnlint/decode/node.py:items_safe", "src/cfnlint/decode/node.py:get_safe", "src/cfnlint/decode/node.py:clean"]}
{"id": "C31", "title": "Resource availability", "statement": "A reference to a conditional resource is reported as unavailable exactly in scenarios consistent with the reference's own conditions in which the resource's condition is false.", "quantifier": "all templates, reference paths", "why_tests_cant": "All combinations of conditions along the path.", "anchors": ["src/cfnlint/template.py:Template.is_resource_available", "src/cfnlint/template.py:Template.get_conditions_from_path"]}
{"id": "C32", "title": "Scenario projection of a value is consistent", "statement": "Resolving an object under a scenario replaces every Fn::If by the branch chosen by the scenario, removes NoValue references and leaves everything else unchanged; the result contains no Fn::If on a scenario condition.", "quantifier": "all objects, all scenarios", "why_tests_cant": "Unbounded nesting.", "anchors": ["src/cfnlint/template.py:Template.get_value_from_scenario", "src/cfnlint/template.py:Template._get_object_without_conditions"]}
{"id": "C33", "title": "Reference existence check is exact", "statement": "A Ref is reported as undefined exactly when it names no parameter, resource, pseudo parameter (or module-provided resource).", "quantifier": "all templates and reference names", "why_tests_cant": "All names, including names sharing prefixes.", "anchors": ["src/cfnlint/template.py:Template.get_valid_refs", "src/cfnlint/helpers.py:RegexDict", "src/cfnlint/rules/functions/RefExist.py:RefExist.match"]}
{"id": "C34", "title": "JSON templates decode to what they say", "statement": "Serialising any JSON value without nulls and duplicate keys and decoding it again yields the same value.", "quantifier": "all JSON values", "why_tests_cant": "All values, all strings incl. escapes.", "anchors": ["src/cfnlint/decode/cfn_json.py"]}
{"id": "C35", "title": "JSON duplicates and nulls are rejected", "statement": "A JSON document in which some object has a duplicated key or a null value never decodes successfully.", "quantifier": "all documents", "why_tests_cant": "All nesting positions.", "anchors": ["src/cfnlint/decode/cfn_json.py:check_duplicates", "src/cfnlint/decode/cfn_json.py:CfnJSONObject"]}
{"id": "C36", "title": "YAML duplicates and nulls are rejected, short-form tags equal long form", "statement": "Constructing a template from a YAML node tree fails if any mapping has a duplicated or null-valued key; short-form function tags produce the same value as the long form.", "quantifier": "all YAML node trees", "why_tests_cant": "All nesting positions.", "anchors": ["src/cfnlint/decode/cfn_yaml.py:NodeConstructor", "src/cfnlint/decode/cfn_yaml.py:multi_constructor"]}
{"id": "C37", "title": "Decoding is total", "statement": "Decoding a file returns either a template that is an object together with no error, or at least one E0000 finding naming the file; it never raises.", "quantifier": "all file contents and I/O outcomes", "why_tests_cant": "Arbitrary inputs and I/O failures.", "anchors": ["src/cfnlint/decode/__init__.py:decode"]}
{"id": "C38", "title": "Specification overrides merge correctly", "statement": "After applying an override, every leaf of the override file is present in the specification, everything not mentioned is unchanged, and applying the same override again changes nothing.", "quantifier": "all specs and overrides", "why_tests_cant": "Recursive maps.", "anchors": ["src/cfnlint/helpers.py:merge_spec", "src/cfnlint/helpers.py:set_specs", "src/cfnlint/helpers.py:override_specs"]}
{"id": "C39", "title": "Node conversion preserves values", "statement": "Converting plain data into annotated nodes preserves the value, is idempotent, and every object and list in the result is annotated.", "quantifier": "all values", "why_tests_cant": "Unbounded structures.", "anchors": ["src/cfnlint/helpers.py:convert_dict"]}
{"id": "C40", "title": "Circular dependency detection", "statement": "A circular dependency is reported iff the dependency relation given by Ref, GetAtt, Sub and DependsOn between resources has a cycle.", "quantifier": "all templates", "why_tests_cant": "All graphs.", "anchors": ["src/cfnlint/graph.py:Graph", "src/cfnlint/rules/resources/CircularDependency.py"]}
{"id": "C41", "title": "Local code URI replacement", "statement": "The serverless pre-processing replaces local code references by a placeholder and leaves S3 references, inline code and all other properties untouched; doing it twice is the same as once.", "quantifier": "all templates", "why_tests_cant": "Arbitrary templates.", "anchors": ["src/cfnlint/transform.py:Transform._replace_local_codeuri"]}
{"id": "C42", "title": "Machine-readable output is faithful", "statement": "Parseable output has exactly one line per finding whose fields can be recovered; JSON output has exactly one record per finding in order.", "quantifier": "all findings incl. messages with newlines and separators", "why_tests_cant": "Arbitrary strings.", "anchors": ["src/cfnlint/formatters/__init__.py"]}
{"id": "C43", "title": "Spec update is crash safe", "statement": "If updating the downloaded specification is interrupted at any point, a later update still brings the specification up to date.", "quantifier": "all crash points, all server histories", "why_tests_cant": "Crash points.", "anchors": ["src/cfnlint/helpers.py:get_url_content", "src/cfnlint/helpers.py:save_metadata", "src/cfnlint/maintenance.py:update_resource_spec"]}
{"id": "C44", "title": "Every typed property object is visited", "statement": "Each rule registered for a property type is invoked on every object of that type in a resource's properties, with the path at which the object stands, and on nothing else.", "quantifier": "all resource properties, all specifications", "why_tests_cant": "Recursive traversal over arbitrary values.", "anchors": ["src/cfnlint/rules/__init__.py:RulesCollection.resource_property", "src/cfnlint/rules/__init__.py:RulesCollection.run_resource"]}
{"id": "C45", "title": "Limit checks have exact boundaries", "statement": "Name and count limits report an error iff the size strictly exceeds the limit and an approaching notice iff it is above 90% of the limit and at most the limit; never both.", "quantifier": "all templates", "why_tests_cant": "All sizes.", "anchors": ["src/cfnlint/rules/common.py"]}
{"id": "C46", "title": "Pretty output lists every finding", "statement": "The pretty output has one section per run of findings of a file, each finding appears exactly once in the section of its file, errors first, and the totals count the findings of each level.", "quantifier": "all lists of findings", "why_tests_cant": "All interleavings of files and levels.", "anchors": ["src/cfnlint/formatters/__init__.py:PrettyFormatter"]}
{"id": "C47", "title": "JUnit output reports every finding", "statement": "The JUnit output reports every finding exactly once, as a failure of the test case of its rule.", "quantifier": "all findings, all rule collections", "why_tests_cant": "Findings of every rule, including those outside the collection.", "anchors": ["src/cfnlint/formatters/__init__.py:JUnitFormatter"]}
{"id": "C48", "title": "Limits stated in bytes are measured in bytes", "statement": "The description limit, documented and reported in bytes, is reported iff the description has more than 1024 bytes.", "quantifier": "all templates, all Unicode descriptions", "why_tests_cant": "All texts and encodings.", "anchors": ["src/cfnlint/rules/templates/LimitDescription.py:LimitDescription.match", "src/cfnlint/helpers.py:LIMITS"]}
{"id": "C49", "title": "The attribute reference check is exact", "statement": "For every specification and template, rule E1010 ends normally and reports a Fn::GetAtt exactly when its argument does not name an attribute offered by an existing resource of the template (or a resource inside a module).", "quantifier": "all specifications, all templates whose resources are objects, all literal arguments", "why_tests_cant": "Attribute names, resource types and module names interact through prefixes and dots; a test suite samples a few names.", "anchors": ["src/cfnlint/rules/functions/GetAtt.py:GetAtt.match", "src/cfnlint/template.py:Template.get_valid_getatts", "src/cfnlint/template.py:Template.get_modules"]}
{"id": "C50", "title": "Listed rules are the rules that run", "statement": "For every set of rules and every configuration, --list-rules prints, ordered by id, exactly the rules that are active when the same command lints a template that does not configure the linter itself.", "quantifier": "all rule collections, all command line and configuration file options", "why_tests_cant": "The listing is built by a separate call with its own argument list; tests print the list only for default options, so a misplaced argument is invisible until mandatory or experimental options are combined with it.", "anchors": ["src/cfnlint/core.py:118-162", "src/cfnlint/core.py:97-109", "src/cfnlint/rules/__init__.py:187-237"]}
{"id": "C51", "title": "Status 0 means clean", "statement": "The process ends with status 0 only if every template given was decoded without error, was checked, and has no findings; a run that fails ends with a status different from 0, and the bits of the status of a completed run say which severities were found.", "quantifier": "all ways of starting the program, all sequences of templates, all behaviours of the checks and of the output", "why_tests_cant": "Pipelines rely on the status of runs nobody looks at; tests check single templates started in one way and cannot cover every exception that can leave a check.", "anchors": ["src/cfnlint/__main__.py:14-59", "src/cfnlint/core.py:63-74", "src/cfnlint/core.py:165-210", "setup.py:60-64"]}
{"id": "C52", "title": "Every property value gets the check for its kind", "statement": "For every object, property and set of checks, check_value resolves the conditions and lists of the property and calls, for every value so reached, exactly once and with the place of the value, the check for its kind: the check of the function for an intrinsic function that has one, no check for other intrinsic functions, the value check otherwise; check_resource_property does this for exactly the resources of the given types.", "quantifier": "all objects, property names, paths, checks and templates", "why_tests_cant": "The kinds of values, the nesting of conditions and lists and the subset of checks a rule supplies multiply; the name of the check is computed from the name of the function by regular expressions.", "anchors": ["src/cfnlint/template.py:527-582", "src/cfnlint/template.py:504-524", "src/cfnlint/template.py:943-951", "src/cfnlint/template.py:368-446"]}
{"id": "C53", "title": "Unused conditions are exactly reported", "statement": "For every template, rule W8001 ends normally and reports exactly the conditions defined in the Conditions section that are used by no Fn::If, no other condition, no resource and no output, each once, at its definition.", "quantifier": "all templates", "why_tests_cant": "Conditions can be used in four different ways at any depth of a template; a missed way makes a used condition look unused only for templates that use it in no other way.", "anchors": ["src/cfnlint/rules/conditions/Used.py:20-58", "src/cfnlint/template.py:284-322", "src/cfnlint/template.py:63-81"]}
{"id": "C54", "title": "Undefined conditions are reported where they are used", "statement": "For every template whose uses of conditions are well formed, rule E8002 reports every use of a condition that is not defined, at the place of the use, and nothing else.", "quantifier": "all templates with well-formed uses of conditions", "why_tests_cant": "Findings are collected in a dictionary keyed by condition name, so templates with several uses, or uses of mixed kinds, behave differently from templates with one.", "anchors": ["src/cfnlint/rules/conditions/Exists.py:20-63", "src/cfnlint/template.py:284-322", "src/cfnlint/template.py:63-81"]}
{"id": "C55", "title": "The JSON decoder accepts only JSON", "statement": "Whatever text the JSON decoder accepts is a JSON document (RFC 8259), and the value it returns is the value the document denotes; with C34 and C35 it accepts exactly the documents without duplicate keys and null members.", "quantifier": "all texts, all values", "why_tests_cant": "The texts a decoder wrongly accepts are unbounded; tests only try the malformed texts their author thought of.", "anchors": ["src/cfnlint/decode/cfn_json.py:86-143", "src/cfnlint/decode/cfn_json.py:160-252", "src/cfnlint/decode/cfn_json.py:280-317", "src/cfnlint/decode/cfn_json.py:346-360"]}
{"id": "C56", "title": "Variables of Fn::Sub are found exactly", "statement": "For every text of an Fn::Sub, get_sub_parameters returns the names between ${ and }, without blanks around them and without those after an exclamation mark, and nothing else.", "quantifier": "every text", "why_tests_cant": "Tests try a few texts; empty or nested braces, line breaks and blanks are not tried.", "anchors": ["src/cfnlint/template.py:453-462"]}
{"id": "C57", "title": "Unused parameters are reported exactly", "statement": "Rule W2001 ends normally and reports exactly the parameters that no Ref names and no Fn::Sub uses as a variable it does not define itself, each once, at its definition.", "quantifier": "every template, before and after the transform", "why_tests_cant": "The uses lie anywhere in the template and an Fn::Sub can define variables of its own; fixtures hold a few uses.", "anchors": ["src/cfnlint/rules/parameters/Used.py:34-58", "src/cfnlint/template.py:37-41", "src/cfnlint/template.py:83-89"]}
{"id": "C58", "title": "Unused mappings are reported exactly", "statement": "Rule W7001 ends normally and reports exactly the mappings no Fn::FindInMap names, each once, at its definition, unless the name of a mapping is computed somewhere, when it reports nothing.", "quantifier": "every template, before and after the transform", "why_tests_cant": "Malformed calls and computed names in any order are not in the fixtures.", "anchors": ["src/cfnlint/rules/mappings/Used.py:17-51"]}
{"id": "C59", "title": "Superfluous Fn::Sub and superfluous variables are reported exactly", "statement": "Rule W1020 ends normally and reports exactly the texts of Fn::Sub without variables; rule W1019 reports exactly the variables an Fn::Sub defines and its text does not use.", "quantifier": "every template", "why_tests_cant": "Texts with literals, repeated variables and malformed lists combine in ways fixtures do not cover.", "anchors": ["src/cfnlint/rules/functions/SubUnneeded.py:16-46", "src/cfnlint/rules/functions/SubParametersUsed.py:16-51"]}
{"id": "C60", "title": "Missing required properties are reported exactly", "statement": "Rule E3003 reports an object for a required property exactly when some branch choice leads to it and the object, under the conditions of the deployment, lacks the property; it reports each object at its own place.", "quantifier": "every specification, every properties value with any nesting of Fn::If, every truth assignment", "why_tests_cant": "Nested conditions around objects and properties give exponentially many deployments.", "anchors": ["src/cfnlint/rules/resources/properties/Required.py:38-109"]}
{"id": "C61", "title": "Groups of which at least one or exactly one property is needed", "statement": "Rules E2522 and E2523 report an object and a group exactly when some deployment leaves the object with none of the group, or not with exactly one of it, and name a scenario of the conditions in which this is so.", "quantifier": "every object, group, template with conditions and deployment", "why_tests_cant": "The reports depend on the truth values of all conditions of the properties of the group.", "anchors": ["src/cfnlint/rules/resources/properties/AtLeastOne.py:32-63", "src/cfnlint/rules/resources/properties/OnlyOne.py:32-63", "src/cfnlint/template.py:735-797"]}
{"id": "C62", "title": "Properties that exclude or require one another", "statement": "Rule E2520 reports two properties exactly when one excludes the other and some deployment has both; rule E2521 reports a property and another exactly when it requires the other and some deployment has the first without the second.", "quantifier": "every object, table of properties, template with conditions and deployment", "why_tests_cant": "The reports depend on the truth values of all conditions of the object.", "anchors": ["src/cfnlint/rules/resources/properties/Exclusive.py:30-57", "src/cfnlint/rules/resources/properties/Inclusive.py:30-59"]}
{"id": "C63", "title": "References to resources that may not exist", "statement": "Rule W1001 reports a reference (Ref, Fn::GetAtt, or a variable of Fn::Sub) together with a scenario exactly when the reference exists in some deployment in which the resource it names does not; the place reported is that of the reference and the scenario can occur.", "quantifier": "every template, reference, resource condition and deployment", "why_tests_cant": "Whether reference and resource exist together depends on all conditions around both.", "anchors": ["src/cfnlint/rules/functions/RelationshipConditions.py:21-68", "src/cfnlint/template.py:584-621"]}
{"id": "C64", "title": "Values of DependsOn", "statement": "Rule E3005 reports a value of DependsOn exactly when it is not a text, names no resource, or names a resource that some deployment lacks though it has the dependent resource; in the last case with a scenario of that deployment.", "quantifier": "every template, resource, value of DependsOn and deployment", "why_tests_cant": "The values, the resources and their conditions combine without bound.", "anchors": ["src/cfnlint/rules/resources/DependsOn.py:19-55"]}
{"id": "C65", "title": "Superfluous dependencies", "statement": "Rule W3005 reports a value of DependsOn with the place of a reference exactly when that reference stands in the same resource and names the same resource.", "quantifier": "every template, resource, value of DependsOn and reference", "why_tests_cant": "References occur at any depth and in several notations.", "anchors": ["src/cfnlint/rules/resources/DependsOnObsolete.py:18-73"]}
{"id": "C66", "title": "Lookup of references", "statement": "Looking up a name in the table of references finds the parameter, resource or pseudo parameter of that name, else the module whose name begins the name, with its type and section.", "quantifier": "every template and name", "why_tests_cant": "A name can begin with another name, which the regular expressions of the table also match.", "anchors": ["src/cfnlint/helpers.py:204-225", "src/cfnlint/template.py:134-165"]}
{"id": "C67", "title": "Grammar of conditions", "statement": "The rules E8001 and E8003 to E8006 report exactly the places where a condition departs from the grammar of conditions, and are all silent exactly when every condition follows the grammar.", "quantifier": "every template with any conditions", "why_tests_cant": "Conditions nest to any depth.", "anchors": ["src/cfnlint/rules/conditions/Configuration.py:25-53", "src/cfnlint/rules/conditions/Equals.py:23-86", "src/cfnlint/rules/conditions/common.py:8-56", "src/cfnlint/rules/conditions/And.py", "src/cfnlint/rules/conditions/Not.py", "src/cfnlint/rules/conditions/Or.py"]}
{"id": "C68", "title": "Accepted conditions have a truth value", "statement": "Where the rules E8001 to E8006 are silent, every condition has exactly one truth value under every assignment of values to functions.", "quantifier": "every template, condition and assignment", "why_tests_cant": "There are infinitely many conditions and assignments, and names can refer to each other.", "anchors": ["src/cfnlint/rules/conditions/Exists.py:20-63", "src/cfnlint/rules/conditions/Configuration.py:25-53", "src/cfnlint/rules/conditions/common.py:8-56"]}
{"id": "C69", "title": "Rules on mappings report exactly the faults", "statement": "E7001 reports exactly the maps, first keys and values of Mappings that do not have the allowed form. E1011 reports exactly the Fn::FindInMap calls with a wrong number of arguments, an unknown map, or keys computed by functions that are not allowed. W1011 reports exactly the written out keys that are missing in the map. All three end normally.", "quantifier": "all templates and all their Fn::FindInMap calls", "why_tests_cant": "Tests hold a handful of mapping templates; the claim is about every template, every depth at which a call may stand and every combination of written out and computed keys.", "anchors": ["src/cfnlint/rules/mappings/Configuration.py:18-51", "src/cfnlint/rules/functions/FindInMap.py:26-133", "src/cfnlint/rules/functions/FindInMapKeys.py:19-64", "src/cfnlint/template.py:106-112"]}
{"id": "C70", "title": "Accepted Fn::FindInMap calls find a value", "statement": "If E7001, E1011 and W1011 are silent, then every Fn::FindInMap with a written out map and second key finds a value of an allowed type: below the first key if that is written out, otherwise below every first key of the map.", "quantifier": "all templates with a Mappings object and all calls in them", "why_tests_cant": "The claim is about the joint effect of three rules on all templates; tests look at one rule and one fixture at a time.", "anchors": ["src/cfnlint/rules/mappings/Configuration.py:18-51", "src/cfnlint/rules/functions/FindInMap.py:26-133", "src/cfnlint/rules/functions/FindInMapKeys.py:19-64"]}
{"id": "C71", "title": "Faults of Fn::Sub are reported exactly", "statement": "Rule E1019 ends normally. It reports a name in the text of Fn::Sub, or behind a reference in its variables, exactly when the name stands for nothing (no pseudo parameter, resource, parameter, own variable, attribute of a resource or name inside a module) or stands for a list; and it reports exactly the calls and variables that do not have the allowed form.", "quantifier": "all templates, specifications of attributes and calls of Fn::Sub", "why_tests_cant": "Every name, nesting and combination of sections matters; the tests hold a few templates with fixed names.", "anchors": ["src/cfnlint/rules/functions/Sub.py:19-183", "src/cfnlint/template.py:114-122", "src/cfnlint/template.py:167-200", "src/cfnlint/template.py:453-462"]}
{"id": "C72", "title": "Faults in the form of function calls are reported exactly", "statement": "Rules E1028 (Fn::If), E1017 (Fn::Select), E1018 (Fn::Split), E1016 (Fn::ImportValue), E1021 (Fn::Base64), E1015 (Fn::GetAZs) and E1023 (Fn::Not) end normally on every template and report a place exactly when a call of their function has not the allowed form there.", "quantifier": "all templates, at any depth", "why_tests_cant": "Arguments are arbitrary values and calls may be nested anywhere; tests try a few shapes.", "anchors": ["src/cfnlint/rules/functions/If.py:18-45", "src/cfnlint/rules/functions/Select.py:18-77", "src/cfnlint/rules/functions/Split.py:18-70", "src/cfnlint/rules/functions/ImportValue.py:18-60", "src/cfnlint/rules/functions/Base64.py:18-41", "src/cfnlint/rules/functions/GetAz.py:18-46", "src/cfnlint/rules/functions/Not.py:17-26"]}
{"id": "C73", "title": "Faults of Fn::Join are reported exactly", "statement": "Rule E1022 ends normally and reports a call of Fn::Join exactly when it is not a delimiter with a list of single values or with a function that gives a list: references and attributes that are lists must not stand for single values, and those that are none must not stand for the list.", "quantifier": "all templates, specifications of attributes and calls of Fn::Join", "why_tests_cant": "Whether a value is a list depends on the types of parameters and resources and on the specification.", "anchors": ["src/cfnlint/rules/functions/Join.py:19-167", "src/cfnlint/template.py:167-200"]}
{"id": "C74", "title": "Texts of addresses and records are recognised exactly", "statement": "The regular expressions for address blocks, IPv4 addresses, domain names, TXT values, validation names and logical names accept exactly the texts they are meant to describe: numbers up to 255 with dots between them and a prefix length up to 32, visible characters, quoted items of one to 255 characters, letters and digits.", "quantifier": "for all texts, of any length", "why_tests_cant": "There are infinitely many texts; tests try a handful of addresses and miss leading zeros and trailing line breaks.", "anchors": ["src/cfnlint/helpers.py:70", "src/cfnlint/rules/resources/route53/RecordSet.py:21"]}
{"id": "C75", "title": "Fn::Cidr is checked exactly", "statement": "The rule on Fn::Cidr reports exactly the calls that are not made of an address block, a count and perhaps a mask, and the parameters used for the count or the mask that are not numbers with bounds from 1 to 256 and from 1 to 128.", "quantifier": "for all templates, all calls at any depth and all parameters", "why_tests_cant": "Calls may be anywhere and the parameters are checked apart from the calls; tests do not have a call without mask, nor masks with bounds above 128, nor bounds written as texts.", "anchors": ["src/cfnlint/rules/functions/Cidr.py:76"]}
{"id": "C76", "title": "Properties of resources are selected completely and at the right places", "statement": "Asked for a type of resource and a sequence of property names, the template returns exactly the values these names lead to in the resources of the type, through all branches of conditions and all elements of lists, each with the path at which it stands.", "quantifier": "for all templates, types, sequences of names and nestings of lists and conditions", "why_tests_cant": "The walk recurses through objects, lists and conditions; tests use one or two shapes and never a list element with a single key.", "anchors": ["src/cfnlint/template.py:221", "src/cfnlint/template.py:269"]}
{"id": "C77", "title": "Records of a domain are checked by their type", "statement": "The rule on Route 53 records reports exactly the records that are not of the form their type demands, in record sets of their own and in groups, and CNAME record sets with more than one record.", "quantifier": "for all templates and all texts of records", "why_tests_cant": "Records are free text; the tests use a few dozen records and never an MX record with a good priority and a bad name.", "anchors": ["src/cfnlint/rules/resources/route53/RecordSet.py:164", "src/cfnlint/rules/resources/route53/RecordSet.py:240"]}
{"id": "C78", "title": "Properties of resources are those the specification declares", "statement": "The rule on properties reports exactly the faults of the properties of a resource against the specification, each at the place it stands: undeclared keys, values that are no objects, no lists or no primitive values where the declaration demands them, through nested objects, lists and branches of conditions.", "quantifier": "for all specifications, templates and nestings of objects, lists and conditions", "why_tests_cant": "The check is a recursion over three kinds of declarations and over conditions; the tests cover some real types and never a condition inside a condition, nor an attribute of a missing resource.", "anchors": ["src/cfnlint/rules/resources/properties/Properties.py:195", "src/cfnlint/rules/resources/properties/Properties.py:72", "src/cfnlint/rules/resources/properties/Properties.py:32"]}
{"id": "C79", "title": "Variables outside of Fn::Sub are reported exactly", "statement": "The rule on missing Fn::Sub reports exactly the texts of the template that contain a variable which nothing replaces: neither Fn::Sub, nor a property with free text, a policy, a stage of an API, the substitutions of a state machine or the configured pattern; each at its place.", "quantifier": "for all templates and texts", "why_tests_cant": "A variable may stand at any depth of any text; tests use a handful of templates and check the number of findings, not the places.", "anchors": ["src/cfnlint/rules/functions/SubNeeded.py:69", "src/cfnlint/rules/functions/SubNeeded.py:111"]}
{"id": "C80", "title": "Values of properties have the declared primitive types", "statement": "For the properties of a resource, or of an object inside it, E3012 reports exactly the values and the entries of maps that do not have the primitive type the specification declares or, where this is enough, cannot be read as one, each at its place; calls of functions are not reported.", "quantifier": "all objects, all declarations, both settings of strictness, all nestings of conditions and lists in the values", "why_tests_cant": "Tests try a few properties with a few wrong values; which of the pairs of types and values slip through is not seen.", "anchors": ["src/cfnlint/rules/resources/properties/ValuePrimitiveType.py:52-179", "src/cfnlint/template.py:527-582"]}
{"id": "C81", "title": "Values of properties are among those allowed", "statement": "For the properties of a resource, or of an object inside it, E3030, E3031, E3033 and E3034 report exactly the known values that are not among the allowed texts, do not match the pattern, are too short or too long, or are no numbers in the range the specification gives, each at its place, in all branches of conditions.", "quantifier": "all objects, all declarations, all nestings of conditions and lists", "why_tests_cant": "Tests check single properties of single resources; that all four rules look at the same values cannot be seen from them.", "anchors": ["src/cfnlint/rules/resources/properties/AllowedValue.py:27-67", "src/cfnlint/rules/resources/properties/AllowedPattern.py:28-76", "src/cfnlint/rules/resources/properties/StringSize.py:27-71", "src/cfnlint/rules/resources/properties/NumberSize.py:28-85"]}
{"id": "C82", "title": "The number of elements of a list is checked in each deployment", "statement": "For a property declared as a list whose type of value has a least and a greatest number of elements, E3032 reports the property exactly when there is a deployment in which the list has fewer or more elements; elements that are AWS::NoValue in the deployment are not counted.", "quantifier": "all objects, declarations, conditions and deployments", "why_tests_cant": "The number of elements depends on all combinations of conditions; tests check a few lists without AWS::NoValue.", "anchors": ["src/cfnlint/rules/resources/properties/ListSize.py:26-80", "src/cfnlint/template.py:681-797"]}
{"id": "C83", "title": "Equal elements of lists are reported", "statement": "For a property declared as a list without equal elements (E3037; for I3037 a list of texts or numbers in which they are allowed), each element that has the same JSON text as an earlier element in some deployment is reported, and only such elements; the order of keys does not matter.", "quantifier": "all objects, declarations, conditions and deployments", "why_tests_cant": "Equality up to the order of keys at any depth and over all combinations of conditions cannot be enumerated.", "anchors": ["src/cfnlint/rules/resources/properties/ListDuplicates.py:29-83", "src/cfnlint/rules/resources/properties/ListDuplicatesAllowed.py:29-84"]}
{"id": "C84", "title": "Policies of resources", "statement": "For every template: E3035 and E3036 report exactly the policies written on typed resources that the resource may not have (Delete, Retain, or Snapshot for types with snapshots); W3011 reports exactly the resources other than versions which are kept on removal and say nothing on replacement, or the other way round; I3011 reports exactly the resources of types that hold data which do not state both policies.", "quantifier": "all templates", "why_tests_cant": "Tests have a handful of resources; they never write an empty policy, and cannot cover all combinations of types and policies.", "anchors": ["src/cfnlint/rules/resources/DeletionPolicy.py:20-66", "src/cfnlint/rules/resources/UpdateReplacePolicy.py:20-66", "src/cfnlint/rules/resources/BothUpdateReplacePolicyDeletionPolicyNeeded.py:17-29", "src/cfnlint/rules/resources/UpdateReplacePolicyDeletionPolicyOnStatefulResourceTypes.py:18-56"]}
{"id": "C85", "title": "Secret parameters in metadata", "statement": "For every template whose parameters are objects and whose Fn::Sub texts are well formed, W4002 reports a parameter for a resource exactly when the parameter's NoEcho is true and the metadata of the resource contains its value, through Ref or through a variable of Fn::Sub.", "quantifier": "all templates, all places in the metadata, all parameters", "why_tests_cant": "Tests have one template with a Ref and one with a plain Fn::Sub text; the form of Fn::Sub with an object of variables is never tried.", "anchors": ["src/cfnlint/rules/resources/NoEcho.py:19-72"]}
{"id": "C86", "title": "Defaults of parameters", "statement": "For every template whose parameters have the type of a text, a number or a list, whose attributes are written as intended and which have no pattern, E2015 reports a default exactly when the parameter may not have it: below MinValue or above MaxValue (numbers, which may be written as texts), shorter than MinLength or longer than MaxLength (texts), or not among AllowedValues (for lists, an element that is not among them).", "quantifier": "all templates, all parameters, all constraints", "why_tests_cant": "Tests write numbers as numbers, never use a least value of zero and never a list type with allowed values.", "anchors": ["src/cfnlint/rules/parameters/Default.py:19-144"]}
{"id": "C87", "title": "One route table for each subnet", "statement": "Rule E3022 reports a subnet route table association exactly if another association of the template may name the same subnet at the same time, under conditions on the resources and under Fn::If in SubnetId.", "quantifier": "all templates, all conditions and all nestings of Fn::If", "why_tests_cant": "The tests hold a few templates; which pairs of conditions and branches are compared is decided by tuples of values, and the wrong pairs show only when two resources use different conditions or opposite branches.", "anchors": ["src/cfnlint/rules/resources/ectwo/RouteTableAssociation.py:29-91"]}
{"id": "C88", "title": "Schedule expressions", "statement": "Rule E3027 reports the text of a ScheduleExpression exactly if it is neither rate(value unit) nor cron of six fields with exactly one of the two days left open; every other value of the property is looked at once, at its place.", "quantifier": "all texts and all values of the property", "why_tests_cant": "The tests hold a dozen expressions; the tests on the beginning, the end, the first closing parenthesis and the pieces between spaces interact on texts nobody lists.", "anchors": ["src/cfnlint/rules/resources/events/RuleScheduleExpression.py:22-96"]}
{"id": "C89", "title": "Actions of pipelines (E2541)", "statement": "For a template whose pipelines list their stages and actions without conditions, the rule on stage actions reports exactly: an action named like one listed before it in its stage; a version that is not 1 to 9 characters long or has characters other than letters, digits, underscores and hyphens (a line feed at the end is let through); a number of input or output artifacts outside the range of the provider; an input artifact that no action listed before it, in its stage or in an earlier one, produces; an output artifact that was already produced. The order of running (RunOrder) is not looked at, so an input is reported exactly when it is missing only if the actions are listed in the order in which they run.", "quantifier": "all templates with pipelines of any number of stages and actions; all names, versions, artifacts and orders", "why_tests_cant": "The sets of names and artifacts are carried through two nested loops of any length; tests fix a few pipelines and never list actions against their RunOrder.", "anchors": ["src/cfnlint/rules/resources/codepipeline/CodepipelineStageActions.py:129-294"]}
{"id": "C90", "title": "Documentation of the rules", "statement": "update_documentation keeps what precedes the first line '## Rules' and that line, drops what follows, and writes a table with the three rules of the linter itself and then each rule once, ordered by id, with its title, description, options, source and tags, stating the number of rows. All rules whose id starts with I, E or W are given, also experimental ones. Running it again changes nothing. If the source of a rule is not found the file is left as it was.", "quantifier": "all texts of the file, all sets of rules, all answers of git grep", "why_tests_cant": "The real file always has the heading and every rule has a source; tests do not run the command on other files, and idempotence is a statement about all texts.", "anchors": ["src/cfnlint/maintenance.py:87-135", "src/cfnlint/core.py:133-137"]}
{"id": "C91", "title": "More than five targets of an event rule", "statement": "For a template whose rules have different names, texts without full stops, E3021 reports an AWS::Events::Rule exactly if under some truth values of the conditions its property Targets is a list of more than five elements.", "quantifier": "for all sequences of rules, all values of Targets without nulls and all truth values of the conditions", "why_tests_cant": "The counts are kept in the rule object from one resource to the next and under a name made from the path; tests have one rule and no nested conditions.", "anchors": ["src/cfnlint/rules/resources/events/RuleTargetsLimit.py:24-60"]}
{"id": "C92", "title": "Faults of policy documents", "statement": "For a resource that has policies, E2507 reports exactly the faults of its policy documents, given as objects or as JSON texts, in all branches of conditions: unknown keys, versions, statements that are no lists, and for each statement unknown keys, a missing or wrong Effect, a missing action, a principal where there must be none or none where there must be one, and a missing resource. Each fault is reported at its path, and the rule raises no exception.", "quantifier": "for all properties of resources, all decodings of texts and all nestings of conditions", "why_tests_cant": "The checks depend on the branches of nested conditions, on removed entries and on whether lists or objects depend on conditions; tests have few of the combinations, and do not look at the paths.", "anchors": ["src/cfnlint/rules/resources/iam/Policy.py:48-212", "src/cfnlint/decode/node.py:114-178"]}
{"id": "C93", "title": "Properties required or unwanted because of another value", "statement": "E3017 reports a property exactly if in some deployment another property of the object has a value named by the specification (a matching text, a reference to or an attribute of a resource of a given type) and the required property is absent; E3018 reports exactly those that are present though unwanted. A report names the scenario, and what it says holds in all deployments agreeing with it. References to unknown resources do not raise.", "quantifier": "for all objects and specifications, all templates and all truth values of the conditions", "why_tests_cant": "Whether a report is right depends on every combination of the conditions of two properties; the tests use few templates and no conditions.", "anchors": ["src/cfnlint/rules/resources/properties/BasedOnValue.py:35-127", "src/cfnlint/rules/resources/properties/RequiredBasedOnValue.py:18-19", "src/cfnlint/rules/resources/properties/UnwantedBasedOnValue.py:18-19"]}
{"id": "C94", "title": "The serverless transformation and its failures", "statement": "A template is handed to the serverless translator exactly if its Transform is the name AWS::Serverless-2016-10-31 or a list containing it; other templates are left as they are. If the translation succeeds its converted result is linted. Any failure, also of the preparation, becomes E0001 findings at line 1: one for each cause of an invalid document, otherwise one; then no rule is run and only these findings are returned, or none if E0001 is disabled. No exception leaves the transformation.", "quantifier": "for all templates, regions, translators and configurations", "why_tests_cant": "The translator is a third-party library; tests run it on a few templates and do not make it fail in all ways.", "anchors": ["src/cfnlint/runner.py:25-42", "src/cfnlint/transform.py:101-147", "src/cfnlint/core.py:229-246"]}
{"id": "C95", "title": "The rule on pipeline stages reports exactly the faults of the stages deployed", "statement": "E2540 reports for the stages of a pipeline that there are fewer than two, that the first stage has no source action or other actions too, a source action of a later stage, that every action is a source action, and a name that an earlier stage has; a pipeline gets no finding exactly if it meets those requirements; with conditions this is said of the stages left in each scenario, and a finding names the faulty place of the template.", "quantifier": "for every list of stages with any number of actions, every set of scenarios", "why_tests_cant": "the requirements interact (counts, first stage, categories, names) and the list is projected in every scenario; tests use one pipeline at a time", "anchors": ["src/cfnlint/rules/resources/codepipeline/CodepipelineStages.py:27", "src/cfnlint/rules/resources/codepipeline/CodepipelineStages.py:38", "src/cfnlint/rules/resources/codepipeline/CodepipelineStages.py:62", "src/cfnlint/rules/resources/codepipeline/CodepipelineStages.py:86", "src/cfnlint/rules/resources/codepipeline/CodepipelineStages.py:104"]}
{"id": "C96", "title": "The rule on table attributes compares what each deployment defines with what its keys use", "statement": "E3039 reports a table whenever, in some deployment, the set of attribute names in AttributeDefinitions differs from the set used by the key schema of the table and of its global and local secondary indexes; the finding is at the properties of the table and lists, sorted and without repetition, the attributes of that deployment; there are no other findings.", "quantifier": "for every table with definitions, keys and indexes given by lists with conditions at any depth, every template with its conditions", "why_tests_cant": "the sets range over all combinations of conditions on four properties and their elements; tests check a few tables", "anchors": ["src/cfnlint/rules/resources/dynamodb/AttributeMismatch.py:25", "src/cfnlint/rules/resources/dynamodb/AttributeMismatch.py:36", "src/cfnlint/rules/resources/dynamodb/AttributeMismatch.py:50", "src/cfnlint/rules/resources/dynamodb/AttributeMismatch.py:91"]}
{"id": "C97", "title": "Where the JSON decoder says things stand", "statement": "Every key, object and list of a JSON document carries a mark, and every error of the decoder a place, that is the line and column of that piece of the text; the marks do not change the decoded value.", "quantifier": "all texts, all keys, objects, lists and errors at any depth", "why_tests_cant": "Line and column arithmetic over arbitrary texts, nesting, blanks and escapes; tests compare a few positions of a few files.", "anchors": ["src/cfnlint/decode/cfn_json.py:46-68", "src/cfnlint/decode/cfn_json.py:157-258", "src/cfnlint/decode/cfn_json.py:329-338", "src/cfnlint/decode/cfn_json.py:373-378"]}
{"id": "C98", "title": "Which configuration files count and what they may hold", "statement": "A configuration file named on the command line is the only one used; else ~/.cfnlintrc and the first of .cfnlintrc.yaml, .cfnlintrc.yml and .cfnlintrc in the current directory are, the project's values overriding the user's. Every file used must hold known options with values of their types, and so does the merged configuration. Every option the program looks for in a configuration file can be set there.", "quantifier": "all file systems, contents of files and command lines", "why_tests_cant": "Tests mock the file reads for a few contents; they cannot show that no other file matters, that merging any two accepted files stays within the schema, or compare the options read with the options the schema admits.", "anchors": ["src/cfnlint/config.py:44-151", "src/cfnlint/config.py:153-228", "src/cfnlint/config.py:472-484", "src/cfnlint/data/CfnLintCli/config/schema.json"]}
{"id": "C99", "title": "List options of the command line", "statement": "The value of a list option is its default followed by the elements of all its arguments in order; arguments are split at commas, and it does not matter how the elements are spread over arguments and occurrences. The rules checked are those that the elements of -c, -i and -m select; a stray comma selects nothing. Parsing again gives the same lists.", "quantifier": "all command lines given as occurrences of options, all rule ids", "why_tests_cant": "Tests parse a few command lines; they cannot cover every grouping of arguments nor how empty pieces act on all rule ids.", "anchors": ["src/cfnlint/config.py:231-233", "src/cfnlint/config.py:307-318", "src/cfnlint/config.py:335-402", "src/cfnlint/rules/__init__.py:54-83"]}
{"id": "C100", "title": "Names of record sets and their zones", "statement": "E3041 reports the name of a Route 53 record set exactly in the deployments where it is not in its hosted zone, and the name of the zone exactly where it does not end in a dot; the texts are those that the deployment chooses through Fn::If.", "quantifier": "for all property objects, all templates and all truth values of conditions, all names and zones", "why_tests_cant": "Tests fix a few names and conditions; the claim is about every pair of names in every deployment, including names that end with the characters of the zone without being in it.", "anchors": ["src/cfnlint/rules/resources/route53/RecordSetName.py:23-59", "src/cfnlint/template.py:get_object_without_conditions"]}
{"id": "C101", "title": "Secure parameters stand only where they may", "statement": "E1027 reports every text with a reference to a secure parameter ({{resolve:ssm-secure:name:version}}) below a property that takes none, and nothing else.", "quantifier": "for all property objects, all declarations of properties and all texts", "why_tests_cant": "Tests hold a few templates; the claim is about every text at every place, including texts of several lines, entries of maps and parts of functions.", "anchors": ["src/cfnlint/rules/functions/DynamicReferenceSecureString.py:53-136", "src/cfnlint/helpers.py:79"]}
{"id": "C102", "title": "Actions of policies exist", "statement": "In the policy documents of a resource, an action has a finding of W3037 if and only if its service, or an action of its service that it stands for, does not exist. Letter case does not matter, a star stands for any text, and a question mark for one character. The finding is at the statement of the action.", "quantifier": "all tables of services, all policy documents (objects, texts in JSON, under conditions), all actions and patterns", "why_tests_cant": "Tests compare the findings for three template files with expected counts; patterns in the middle of a name, question marks and lists of excluded actions occur in none of them.", "anchors": ["src/cfnlint/rules/resources/iam/Permissions.py:42-61", "src/cfnlint/rules/resources/iam/Permissions.py:63-98", "src/cfnlint/rules/resources/iam/Permissions.py:100-146", "src/cfnlint/rules/resources/iam/Permissions.py:148-165", "src/cfnlint/rules/resources/iam/Permissions.py:167-191"]}
{"id": "C103", "title": "References have the types that properties take", "statement": "A Ref or Fn::GetAtt in the value of a property has a finding of E3008 if and only if the specification gives what may be referred to and the parameter, resource or attribute is not among it; a list chosen as a whole goes by the list type, its elements by the value type; attributes of custom resources are free, and outputs of nested stacks are texts.", "quantifier": "all templates, all declarations of properties, all property objects, conditions and lists", "why_tests_cant": "Tests hold a few templates; whether a reference stands for a list or for an element is decided from its path, which depends on every nesting of Fn::If.", "anchors": ["src/cfnlint/rules/resources/properties/ValueRefGetAtt.py:26-41", "src/cfnlint/rules/resources/properties/ValueRefGetAtt.py:43-100", "src/cfnlint/rules/resources/properties/ValueRefGetAtt.py:102-185", "src/cfnlint/rules/resources/properties/ValueRefGetAtt.py:187-211"]}
{"id": "C104", "title": "Listeners and load balancers", "statement": "E2503 reports a listener exactly when its protocol does not exist or needs a certificate it has not, and a load balancer exactly when one that is no application load balancer has security groups, an application load balancer has less than two subnets or subnet mappings, or an attribute is not one of its kind; each finding is at the place of its fault.", "quantifier": "all templates, all listeners and load balancers, all scenarios of conditions", "why_tests_cant": "Tests hold two templates; that a variable keeps its changed value, and that a fault under a condition is passed over, shows only in combinations they do not have.", "anchors": ["src/cfnlint/rules/resources/elb/Elb.py:24-39", "src/cfnlint/rules/resources/elb/Elb.py:41-77", "src/cfnlint/rules/resources/elb/Elb.py:79-121", "src/cfnlint/rules/resources/elb/Elb.py:123-177"]}
{"id": "C105", "title": "Resources that have a schema of their own", "statement": "For every template and every list of registry schemas, rule E3000 reports exactly the resources of the type of a schema whose properties the validator rejects and whose text has no syntax of templates in it, each at its Properties. The schemas of the command line are loaded again for each template, and the report of every template is still the one it gets when it is the only template.", "quantifier": "all templates, lists of schemas, validators, texts of values, lists of directories and lists of templates", "why_tests_cant": "The list of schemas is a global that grows with every template of a run, so a defect would show only in runs over several templates; and the test for syntax is a search in the text of the properties, of which tests see a few.", "anchors": ["src/cfnlint/rules/resources/ResourceSchema.py:18-30", "src/cfnlint/core.py:43-60", "src/cfnlint/helpers.py:53-77"]}
{"id": "C106", "title": "The size of JSON documents", "statement": "For every document, rule E3502 measures the compact JSON text of the document in which each Fn::Sub is replaced by its text without the part from the first placeholder to the last brace of each line. A scenario of the conditions is reported exactly when that text is longer than the limit of the property, and then the document itself is longer, too. A document without functions is reported exactly when its own text is longer.", "quantifier": "all documents, limits, properties, scenarios and texts of substitutions", "why_tests_cant": "Sizes near a limit, texts with several placeholders or lines, escapes of characters and nesting combine without bound; the tests have a handful of documents far from the limit.", "anchors": ["src/cfnlint/rules/resources/properties/JsonSize.py:35-105"]}
{"id": "C107", "title": "The interface of a template and names of its own", "statement": "For every template with metadata of the expected form, E4001 reports exactly the entries that the interface and its groups cannot have, W4001 exactly the names in groups and labels that are none of parameters, each at its place, and E3007 exactly the resources with a type that share a name with a parameter.", "quantifier": "all templates, entries, groups, labels, parameters and resources", "why_tests_cant": "Interfaces, groups and names combine without bound; the tests have a few templates, none with groups that are texts or empty.", "anchors": ["src/cfnlint/rules/metadata/InterfaceConfiguration.py:22-50", "src/cfnlint/rules/metadata/InterfaceParameterExists.py:22-56", "src/cfnlint/rules/resources/UniqueNames.py:15-20", "src/cfnlint/template.py:124-132"]}
{"id": "C108", "title": "Definitions of state machines", "statement": "For every reader of texts and every value of DefinitionString whose texts read as documents of the form of a definition, E2532 reports, each at the place of the value, exactly: the values that are no JSON (not those in Fn::Sub), the keys that a definition and its states cannot have, those they must have and do not, and the types that are not known. The tables are those of the language of states.", "quantifier": "all definitions, states, keys, readers of JSON, values chosen by conditions", "why_tests_cant": "Definitions are texts of any length with any states; the tests have a few, none with nested machines, parallel parameters or documents that are no objects.", "anchors": ["src/cfnlint/rules/resources/stepfunctions/StateMachine.py:25-159"]}
{"id": "C109", "title": "Runtimes that are not supported", "statement": "For every table of runtimes, time, parameters and values of Runtime, E2531 reports exactly the runtimes whose use has ended and W2531 exactly those whose support has ended but not their use: at the values that conditions can choose and, where these refer to parameters, at the defaults and allowed values of the parameters. Of a runtime without support exactly one of the rules speaks, except at the very time of the end, and E2531 keeps speaking of it.", "quantifier": "all tables, times, parameters, values", "why_tests_cant": "The outcome depends on the day the tests run, and the tests fix neither the clock nor the table.", "anchors": ["src/cfnlint/rules/resources/lmbd/DeprecatedRuntime.py:14-65", "src/cfnlint/rules/resources/lmbd/DeprecatedRuntimeEnd.py:18-33", "src/cfnlint/rules/resources/lmbd/DeprecatedRuntimeEol.py:18-34"]}
{"id": "C110", "title": "Zones that are written down, and references to resources with paths", "statement": "For every object, W3010 finds exactly the values of AvailabilityZone and AvailabilityZones that are no calls of functions and not 'all'; E3050 finds exactly the references from a service role to resources whose path can be other than the root.", "quantifier": "all objects, conditions, lists, resources", "why_tests_cant": "Values and conditions nest without bound; the tests have no conditions and no path that is calculated.", "anchors": ["src/cfnlint/rules/resources/properties/AvailabilityZone.py:17-96", "src/cfnlint/rules/resources/iam/RefWithPath.py:18-58"]}
{"id": "C111", "title": "Versions of policies", "statement": "For every resource with policies, W2511 finds exactly the documents of the version 2008-10-17, of every document that conditions can choose and of every policy, each at its version.", "quantifier": "all types, resources, conditions, documents", "why_tests_cant": "Policies and conditions combine without bound; the tests have no conditions around policies.", "anchors": ["src/cfnlint/rules/resources/iam/PolicyVersion.py:18-84"]}
{"id": "C112", "title": "Passwords are no texts and not shown", "statement": "For every template, the rule on passwords (W2501) reports exactly the password properties of resources that are texts without a dynamic reference, dynamic references that are not secure and objects with several entries, and the parameters for passwords for which NoEcho is not set; the rule on images (W2506) reports exactly the objects that are no calls and the parameters of other types that images refer to.", "quantifier": "all templates, all texts, all names of parameters", "why_tests_cant": "Tests fix a handful of templates; the values of NoEcho, the places of passwords and the kinds of things an image refers to cannot be enumerated.", "anchors": ["src/cfnlint/rules/resources/properties/Password.py:20-72", "src/cfnlint/rules/resources/properties/ImageId.py:18-50", "src/cfnlint/helpers.py:77-78"]}
{"id": "C113", "title": "Aliases of distributions and essential containers", "statement": "For every template, E3013 finds exactly the aliases of distributions that are no names of domains or have a star for a later part, and E3042 finds exactly the definitions of tasks none of whose containers is essential.", "quantifier": "all templates, all texts as aliases, all lists of containers", "why_tests_cant": "The names of domains are not finite, and the tests have a handful; no test has an alias with braces or a text for Essential.", "anchors": ["src/cfnlint/rules/resources/cloudfront/Aliases.py:19-46", "src/cfnlint/rules/resources/ecs/TaskDefinitionEssentialContainer.py:17-44"]}
{"id": "C114", "title": "Devices, sources of security groups and domains for validation are judged exactly", "statement": "E2504 reports exactly the devices of instances and launch configurations whose VirtualName is not ephemeral0..ephemeral23, whose io1 volume has no Iops, or whose other volume has Iops; E2506 exactly the ingress rules with a source by name inside a VPC or a source by id outside; E3503 exactly the options of which in some scenario DomainName is neither ValidationDomain nor below it. A VirtualName that is no text ends E2504 with an error, and an Iops that is a reference to AWS::NoValue counts as given.", "quantifier": "all well-formed templates, all devices, rules and options, any nesting of Fn::If", "why_tests_cant": "The tests hold a few fixtures; no fixture gives VirtualName by Ref or Iops by AWS::NoValue, and no test enumerates the names of volumes.", "anchors": ["src/cfnlint/rules/resources/ectwo/Ebs.py:19-69", "src/cfnlint/rules/resources/ectwo/SecurityGroupIngress.py:19-89", "src/cfnlint/rules/resources/certificatemanager/DomainValidationOptions.py:23-58"]}
{"id": "C115", "title": "Modules, serverless resources, packages, log filters and memory parameters are judged exactly", "statement": "E5001 reports exactly the reserved key in the metadata of modules and the tags and policies of resources that look like modules; E3038 reports once exactly when there is a serverless resource and no serverless transform; W3002 exactly the texts given where a package is expected; E2529 exactly the third subscription filter of every log group, groups being equal when their JSON values are; W2510 exactly the parameters referred to by MemorySize without both bounds or allowed values. Any text of a resource that ends with ::MODULE makes E5001 take it for a module, the reserved key at the top of a template ends it with an error, and E2529 counts filters whose conditions exclude each other.", "quantifier": "all well-formed templates, any number of resources and filters, any nesting of Fn::If", "why_tests_cant": "Counting per group over all orders of resources and equality of JSON texts cannot be enumerated; no fixture has a condition named like a module or the reserved key at the top.", "anchors": ["src/cfnlint/rules/resources/Modules.py:19-64", "src/cfnlint/rules/resources/ServerlessTransform.py:22-42", "src/cfnlint/rules/resources/properties/PropertiesTemplated.py:34-60", "src/cfnlint/rules/resources/lmbd/EventsLogGroupName.py:26-55", "src/cfnlint/rules/parameters/LambdaMemorySize.py:32-68"]}
{"id": "C116", "title": "References, joins, mapping keys and sections", "statement": "E1020 reports exactly the Ref keys whose value is no text; I1022 exactly the joins with an empty delimiter; E1026 exactly the references to resources in the conditions; E2014 exactly the Ref keys under Parameters; E7003 exactly the row keys that are no texts and the cell keys that are not alphanumeric; E1001 exactly the keys that are no sections, and missing Resources. Only real references should be reported.", "quantifier": "all templates", "why_tests_cant": "The rules search everywhere in a template; tests use a few fixtures and never name a parameter or a resource Ref, nor give an empty join.", "anchors": ["src/cfnlint/rules/functions/Ref.py:18", "src/cfnlint/rules/functions/SubNotJoin.py:17", "src/cfnlint/rules/functions/RefInCondition.py:18", "src/cfnlint/rules/parameters/DefaultRef.py:17", "src/cfnlint/rules/mappings/KeyName.py:20", "src/cfnlint/rules/templates/Base.py:22"]}
{"id": "C117", "title": "Classes of databases and failover of clusters", "statement": "E3025 reports exactly, for each region that is configured, the class of each database (under each branch of If, not AWS::NoValue) that is not among those offered in the region for its engine and its licence, where the licence is that given or else the default of the engine; a database without Properties ends the rule in an error. E3026 reports, for each branch that names a cache parameter group by Ref and each scenario of conditions that agrees with that branch, a cluster with settings cluster-enabled whose automatic failover is off, or that has one node and no node groups.", "quantifier": "all templates, tables of offered classes, configured regions, sets of scenarios, nestings of conditions", "why_tests_cant": "tests look at a few templates; the cases are all nestings of If, all scenarios and all tables", "anchors": ["src/cfnlint/rules/resources/rds/InstanceSize.py:23", "src/cfnlint/rules/resources/rds/InstanceSize.py:37", "src/cfnlint/rules/resources/rds/InstanceSize.py:71", "src/cfnlint/rules/resources/rds/InstanceSize.py:91", "src/cfnlint/rules/resources/elasticache/CacheClusterFailover.py:24", "src/cfnlint/rules/resources/elasticache/CacheClusterFailover.py:33", "src/cfnlint/rules/resources/elasticache/CacheClusterFailover.py:78", "src/cfnlint/rules/resources/elasticache/CacheClusterFailover.py:96"]}
{"id": "C118", "title": "Outputs", "statement": "E6001 reports exactly: outputs that are no section, unknown keys of outputs, values and names of exports that are lists or objects other than a call of one of the functions with a single value, exports that are not one name. E6002 reports exactly the outputs without Value, E6005 and E1004 the descriptions that are not texts, W6001 the values of outputs that are imports, and E6003 the list attributes and list parameters in values of outputs outside Fn::Join; the rules are done with every template whose outputs are objects.", "quantifier": "all templates, globals and tables of attributes", "why_tests_cant": "tests look at a few templates; the properties hold for all of them, with all shapes of values", "anchors": ["src/cfnlint/rules/outputs/Configuration.py:28", "src/cfnlint/rules/outputs/Configuration.py:55", "src/cfnlint/rules/outputs/Configuration.py:84", "src/cfnlint/rules/outputs/Required.py:17", "src/cfnlint/rules/outputs/Value.py:28", "src/cfnlint/rules/outputs/Description.py:18", "src/cfnlint/rules/outputs/ImportValue.py:17", "src/cfnlint/rules/templates/Description.py:18"]}
{"id": "C119", "title": "Declarations of parameters and resources", "statement": "E2001 reports exactly the unknown properties of a parameter, the property values of the wrong type, the properties restricted to another parameter type, and the parameters with no Type. E2002 reports exactly the given types that are not CloudFormation parameter types. E3001 reports exactly the resources that are no objects, the conditions and types that are no strings, the unknown attributes (custom resources have their own set), the missing types, the types unknown to a configured region, and the resources without Properties whose type requires some.", "quantifier": "all templates, all specifications, registries and lists of regions", "why_tests_cant": "The findings depend on every combination of properties, attributes, types and regions.", "anchors": ["src/cfnlint/rules/parameters/Configuration.py:62", "src/cfnlint/rules/parameters/Configuration.py:103", "src/cfnlint/rules/parameters/Types.py:18", "src/cfnlint/rules/resources/Configuration.py:21", "src/cfnlint/rules/resources/Configuration.py:134"]}
{"id": "C120", "title": "Update policies", "statement": "E3016 reports exactly: update policies that are no objects, policies that are unknown or meant for resources of another type, object policies that are no objects, unknown properties of a policy, and property values (in each choice of the Fn::Ifs and each list element, functions apart) that are not of the kind of the property; every finding stands where the fault is.", "quantifier": "all templates", "why_tests_cant": "The policy, its entries and their values may each be nested in Fn::Ifs; paths of findings are composed from several levels.", "anchors": ["src/cfnlint/rules/resources/updatepolicy/Configuration.py:115", "src/cfnlint/rules/resources/updatepolicy/Configuration.py:135", "src/cfnlint/rules/resources/updatepolicy/Configuration.py:171", "src/cfnlint/rules/resources/updatepolicy/Configuration.py:204"]}
{"id": "C121", "title": "Values of parameters used for properties", "statement": "W2030 and W2031 report exactly the allowed values and the (truthy) defaults of the parameters of a single-text type that a declared property uses through Ref, directly or as an element of a list and outside of any Fn::If, where the text of the value is not listed by the specification of the property, or not matched by its pattern; they report nothing in a resource that has a condition.", "quantifier": "for every template whose section of parameters, parameters and lists of allowed values have their shapes, every object of a resource without nulls in declared properties, every specification and every reading of texts", "why_tests_cant": "which values are reported depends on the specification, the parameter and the place of use together; tests use a few parameters", "anchors": ["src/cfnlint/rules/parameters/AllowedValue.py:28", "src/cfnlint/rules/parameters/AllowedValue.py:75", "src/cfnlint/rules/parameters/AllowedPattern.py:28", "src/cfnlint/rules/parameters/AllowedPattern.py:78"]}
{"id": "C122", "title": "Names in the sections of a template", "statement": "E2003, E3006, E6004 and E7002 report exactly the names of their section that have another character than a letter or a digit, each once and with its message. A name with a line break at its end is not reported; a name that is a number, or a section that is no object, makes the rules raise.", "quantifier": "for every template and every one of the four sections", "why_tests_cant": "the names are arbitrary texts; tests use a few, none with a line break", "anchors": ["src/cfnlint/rules/common.py:47", "src/cfnlint/rules/parameters/Name.py:17", "src/cfnlint/rules/resources/Name.py:17", "src/cfnlint/rules/outputs/Name.py:17", "src/cfnlint/rules/mappings/Name.py:17"]}
{"id": "C123", "title": "The rules that are loaded", "statement": "create_rules makes one rule for each class among the attributes of a module that has CloudFormationLintRule among its ancestors, in the order of the names. load_plugins loads every file under a folder whose name begins with a letter and ends with .py, once. get_rules takes the rules of its sources one after the other; a missing file or module ends the run with status 1, any other exception passes.", "quantifier": "for every tree of folders, every content of the files, every list of sources", "why_tests_cant": "which files and classes exist is arbitrary; tests load the folders of the repository only", "anchors": ["src/cfnlint/helpers.py:420", "src/cfnlint/helpers.py:453", "src/cfnlint/helpers.py:472", "src/cfnlint/rules/__init__.py:410", "src/cfnlint/rules/__init__.py:415", "src/cfnlint/core.py:97"]}
{"id": "C124", "title": "The override file applies to every region and template alike, and a bad file ends the run", "statement": "An override file that is a JSON object is applied to every region in the same way: the regions stay the same, and in each of them a value is found at a place exactly if the file puts it there, or it was there before and the file says nothing about the place; of the resource types those are left that the IncludeResourceTypes and ExcludeResourceTypes of the file keep. Although the file is read again for every template, every template is checked with the same specifications. A file that cannot be read or is not JSON ends the run with status 1. Every format the command line offers has its own formatter.", "quantifier": "for all override files, all specifications of all regions, all numbers of templates", "why_tests_cant": "Tests override one value in the shipped specification once; whether the second template sees the same specification, whether all regions agree, and every error of reading need a proof over all of them.", "anchors": ["src/cfnlint/helpers.py:337-382", "src/cfnlint/helpers.py:512-532", "src/cfnlint/core.py:43-47", "src/cfnlint/core.py:77-94"]}
{"id": "C125", "title": "Every well formed condition is loaded, and the table of comparisons is exact", "statement": "When all conditions of a template are well formed and its parameters are objects, all conditions are loaded. The table of comparisons holds for the hash of a function exactly the conditions in which it is compared, each with the other side.", "quantifier": "for all templates, all hash functions, all recursion limits", "why_tests_cant": "Loading catches every exception and goes on with what it has; a test of one template cannot tell which values anywhere in the conditions silently disable all of them.", "anchors": ["src/cfnlint/conditions.py:21-23", "src/cfnlint/conditions.py:203-285"]}
{"id": "C126", "title": "Processing a downloaded specification", "statement": "A patch that fits the document puts its value at its place, or takes away what is there, and changes nothing elsewhere; a patch that does not fit is skipped without effect on the others. The patches for all regions come before those of the region, in the order of the names of the files, however the system lists them. Replacing the botocore types puts the sorted values of each type at AllowedValues in its place and changes nothing else; it fails exactly if a botocore type is not a text or cannot be had.", "quantifier": "for all documents, all lists of patches, all listings of files, all answers of botocore", "why_tests_cant": "Patches are only ever run on the one specification that was downloaded; that a patch leaves every other place alone, and that skipping one does not influence later ones, is a statement about all documents and all lists.", "anchors": ["src/cfnlint/maintenance.py:51-82", "src/cfnlint/maintenance.py:138-163"]}
{"id": "C127", "title": "From the rules' functions to the process status", "statement": "When E0002 is in force and every rule can be set up, running the active rules over a template turns every result of every function a rule overrides - on the whole template, on the properties of each resource of a registered type, on each object of a registered property type reached by the traversal - into exactly one kind of finding: that rule, that message, at the place of its path; a failing call gives an E0002 naming the rule; there are no other findings. Consequently, when the script ends with status 0, every rule in force for a template was called at all those places and found nothing, so e.g. every Ref names something declared and no resource depends on itself.", "quantifier": "For all templates, rule collections, rule behaviours, configurations and sequences of templates.", "why_tests_cant": "The composition quantifies over arbitrary rule behaviours and templates; the tests run single rules on fixture files.", "anchors": ["src/cfnlint/rules/__init__.py:100-169", "src/cfnlint/rules/__init__.py:378-408", "src/cfnlint/runner.py:44-78", "src/cfnlint/core.py:213-248", "src/cfnlint/__main__.py:22-55"]}
{"id": "C128", "title": "Status 0 and the specification", "statement": "When the script ends with status 0 and a rule that checks properties against the specification (E3003, E3012, E3030, E3031, E3033 or E3034) is in force for a template, no object of the template whose type the specification of the first region knows has a fault of the rule's kind: no required property is missing under any truth of the conditions, every value fits the declared primitive type, is among the allowed values, matches the pattern and is within the bounds. This goes from the one JSON specification through the registration of the rules, the traversal of the resources, the check itself, the placement and filtering of findings to the exit status.", "quantifier": "for every set of rules, configuration, specification of us-east-1 and of the first region, list of templates and every object at a declared place of a template, however deep", "why_tests_cant": "The claim composes the traversal, the set-up of the rules, the checks and the reporting; a test runs one template against one specification. That the traversal reads us-east-1 and the rules read the first region shows only where the two specifications differ.", "anchors": ["src/cfnlint/rules/__init__.py:259-408", "src/cfnlint/rules/resources/properties/Required.py:27-90", "src/cfnlint/rules/resources/properties/ValuePrimitiveType.py:42-197", "src/cfnlint/rules/resources/properties/AllowedValue.py:20-89", "src/cfnlint/rules/resources/properties/StringSize.py:20-91", "src/cfnlint/rules/resources/properties/NumberSize.py:21-105"]}
{"id": "C129", "title": "Status 0 and the names in a template", "statement": "When the script ends with status 0, every template is closed as far as the rules on names are in force for it: every Ref names a parameter, resource or pseudo parameter (E1012), every Fn::GetAtt an attribute its resource has (E1010), every variable of Fn::Sub something known (E1019), every condition used is defined (E8002), every DependsOn names a resource (E3005) that is deployed whenever the depending one is, no resource depends on itself (E3004), every Fn::FindInMap with written out keys finds a value (E7001, E1011, W1011) and every condition has exactly one truth value (E8001 to E8006).", "quantifier": "for every set of rules and their other behaviours, configuration, specification of attributes, list of templates and place in them", "why_tests_cant": "A test fixes a template and compares the findings; that the absence of findings of a whole run, through filtering, suppression, failing rules and the exit code, excludes every dangling name in every template is a statement about all of them.", "anchors": ["src/cfnlint/core.py:213-248", "src/cfnlint/runner.py:44-78", "src/cfnlint/rules/functions/RefExist.py:18-44", "src/cfnlint/rules/functions/GetAtt.py:33-107", "src/cfnlint/rules/functions/Sub.py:19-183", "src/cfnlint/rules/conditions/Exists.py:18-63", "src/cfnlint/rules/resources/DependsOn.py:18-55", "src/cfnlint/rules/resources/CircularDependency.py:17-28", "src/cfnlint/rules/functions/FindInMap.py:106-133", "src/cfnlint/rules/conditions/Equals.py:52-86"]}
{"id": "C130", "title": "Status 0 and the form of the sections", "statement": "When the script ends with status 0 and the rules on the form of the sections are in force for a template, its sections are well declared: resources, parameters and outputs are objects of objects whose names are letters and digits; resources have known types and attributes and the properties they need (E3001, E3006); parameters have known properties of the right types and known types (E2001, E2002, E2003); outputs have values, known properties and descriptions that are texts (E6001, E6002, E6004, E6005). With E1012 and E1020 also in force every Ref is the text of a name that may be referred to.", "quantifier": "for every set of rules and their other behaviours, configuration, table of types, list of templates and entry of their sections", "why_tests_cant": "Whether a rule that fails on an odd template hides a finding depends on what every other rule does with that template; tests run each rule on its own fixtures, and no finite set of templates covers the odd shapes a section can have.", "anchors": ["src/cfnlint/rules/parameters/Configuration.py:103-137", "src/cfnlint/rules/parameters/Types.py:18-33", "src/cfnlint/rules/parameters/Name.py:17-18", "src/cfnlint/rules/resources/Configuration.py:47-146", "src/cfnlint/rules/resources/Name.py:17-18", "src/cfnlint/rules/outputs/Configuration.py:84-108", "src/cfnlint/rules/outputs/Required.py:17-30", "src/cfnlint/rules/outputs/Name.py:17-18", "src/cfnlint/rules/outputs/Description.py:18-30", "src/cfnlint/rules/common.py:47-53", "src/cfnlint/rules/functions/Ref.py:18-29"]}
{"id": "C131", "title": "Status 0 and the groups of properties", "statement": "When the script ends with status 0 and the rules on groups of properties and on lists are in force for a template, every object of a type of their tables has, for every truth of the conditions a deployment may have, a property of every group of which it needs one (E2522), exactly one of every group of which it needs exactly one (E2523), none together with one it excludes (E2520), all with those they require (E2521); lists that are values of properties have as many elements as the specification allows (E3032) and no element twice where that is forbidden (E3037). The tables the first four rules are shipped with do not contradict one another: every property they name for a type occurs in a choice of properties all four allow.", "quantifier": "for every set of rules and their other behaviours, configuration, specification, list of templates, object of a type of the tables and truth of the conditions; for every type and property the shipped tables name", "why_tests_cant": "Whether the tables leave a way to use a property, and whether a rule is silenced by an exception, depends on all tables and all templates together", "anchors": ["src/cfnlint/rules/resources/properties/AtLeastOne.py:21-81", "src/cfnlint/rules/resources/properties/OnlyOne.py:21-81", "src/cfnlint/rules/resources/properties/Exclusive.py:19-75", "src/cfnlint/rules/resources/properties/Inclusive.py:19-77", "src/cfnlint/rules/resources/properties/ListSize.py:19-100", "src/cfnlint/rules/resources/properties/ListDuplicates.py:22-103", "src/cfnlint/data/AdditionalSpecs/Exclusive.json:1-124", "src/cfnlint/data/AdditionalSpecs/AtLeastOne.json:1-45"]}
{"id": "C132", "title": "Status 0 means within the limits and everything used", "statement": "When the script ends with status 0 and the rules on limits are in force, every template keeps to the documented limits: names of at most 255 characters, at most 500 resources and 200 entries in the other sections, values of parameters of at most 4096 characters, descriptions of at most 1024, at most 200 attributes per key of a mapping, a file of at most a million bytes. When the rules on unused declarations are in force, every parameter, condition and mapping is used.", "quantifier": "all sets of rules, configurations, templates and runs of the script", "why_tests_cant": "the chain from the rule through the filters and the exit status is long, and the limits are reached by templates larger than any fixture", "anchors": ["src/cfnlint/rules/common.py:33-49", "src/cfnlint/rules/parameters/LimitValue.py:13-64", "src/cfnlint/rules/outputs/LimitDescription.py:12-27", "src/cfnlint/rules/mappings/LimitAttributes.py:12-26", "src/cfnlint/rules/templates/LimitDescription.py:12-24", "src/cfnlint/rules/templates/LimitSize.py:17-32", "src/cfnlint/rules/parameters/Used.py:34-58", "src/cfnlint/rules/conditions/Used.py:12-60", "src/cfnlint/rules/mappings/Used.py:11-51"]}
{"id": "C133", "title": "Status 0 and properties that depend on the value of another", "statement": "When the script ends with status 0 and E3017 and E3018 are in force for a template whose resources are objects with proper names, every object of a type of their table has, in every deployment in which one of its properties has a value that an entry of the table is about, the properties the entry requires and none of those it does not want. With the shipped table: a mapping fed from a stream says where to start and one fed from a queue does not, a cluster that is not serverless has no scaling configuration, an instance of Aurora has none of the settings of its cluster, a table paid by request has no throughput, a health check on a metric names an alarm.", "quantifier": "for every set of rules and their other behaviours, configuration, specification, list of templates, object of a type of the table and truth of the conditions; for every text the expressions are matched with", "why_tests_cant": "Which values an expression is about is a statement on all texts, and whether the finding reaches the exit status depends on every other rule and on exceptions the runner swallows", "anchors": ["src/cfnlint/rules/resources/properties/BasedOnValue.py:18-127", "src/cfnlint/rules/resources/properties/RequiredBasedOnValue.py:8-19", "src/cfnlint/rules/resources/properties/UnwantedBasedOnValue.py:8-19", "src/cfnlint/data/AdditionalSpecs/BasedOnValue.json:1-78"]}
{"id": "C134", "title": "Status 0 and the rules on particular resources", "statement": "When the script ends with status 0 and the rules are in force: each deletion or replacement policy is Delete, Retain, or Snapshot on a type that has snapshots; no resource but a version is kept in one case only; a template with serverless resources names the transform; no reference in a condition names a resource; keys of mappings are texts and those of the second level alphanumeric. For resources of the documented form: update policies are right, a task has an essential container, aliases are domain names, devices, security group rules and listeners have no faults, no log group has three filters, metadata show no secret parameter and no two associations are of the same subnet.", "quantifier": "for every set of rules and their other behaviours, configuration, specification, list of templates, resource, name and value", "why_tests_cant": "A test runs one rule on one template; that a fault always reaches the exit status depends on the selection of rules, the runner, and on exceptions it swallows for all templates", "anchors": ["src/cfnlint/rules/resources/DeletionPolicy.py:14-66", "src/cfnlint/rules/resources/UpdateReplacePolicy.py:14-66", "src/cfnlint/rules/resources/ServerlessTransform.py:13-42", "src/cfnlint/rules/functions/RefInCondition.py:12-33", "src/cfnlint/rules/mappings/KeyName.py:14-47", "src/cfnlint/rules/resources/ectwo/SecurityGroupIngress.py:11-89", "src/cfnlint/rules/resources/elb/Elb.py:123-151", "src/cfnlint/rules/resources/NoEcho.py:12-72", "src/cfnlint/rules/resources/ectwo/RouteTableAssociation.py:14-91"]}
{"id": "C135", "title": "Status 0 and the calls of functions", "statement": "If the command ends with status 0 and the rules on calls of functions are in force, then in every template each Fn::If has a text and two branches, each Fn::Select an index and a list, each Fn::Split a delimiter and a text or a call that gives one, each Fn::ImportValue stands outside of the conditions and has a text or a call that gives one, each Fn::Base64 a text or a call of something but Fn::Split, each Fn::GetAZs a region of the run or that of the stack, each Fn::Not a list, each Fn::Cidr a block, a count and a mask (numbers from 1 to 256 and 128, also when they are parameters), each Fn::Join a delimiter and values that can be joined; each text of a Fn::Sub has a variable, each variable it defines is used, and no text outside of a Fn::Sub has a variable.", "quantifier": "for all templates, rule sets, configurations, messages of the rules, regions and specifications of attributes", "why_tests_cant": "Tests lint fixed templates and compare the findings; that nothing malformed passes the whole command, whatever the template and the other rules, is not something samples can show.", "anchors": ["src/cfnlint/rules/functions/If.py:18-45", "src/cfnlint/rules/functions/Select.py:18-77", "src/cfnlint/rules/functions/Split.py:18-70", "src/cfnlint/rules/functions/ImportValue.py:18-60", "src/cfnlint/rules/functions/Base64.py:18-41", "src/cfnlint/rules/functions/GetAz.py:18-46", "src/cfnlint/rules/functions/Not.py:17-26", "src/cfnlint/rules/functions/Cidr.py:21-163", "src/cfnlint/rules/functions/Join.py:141-167", "src/cfnlint/rules/functions/SubNeeded.py:110-170", "src/cfnlint/rules/functions/SubUnneeded.py:31-46", "src/cfnlint/rules/functions/SubParametersUsed.py:32-51", "src/cfnlint/rules/__init__.py:24-45"]}
{"id": "C136", "title": "Status 0 and the declarations", "statement": "If the command ends with status 0 and the rules on declarations are in force, then in every template each Default of a parameter is allowed by that parameter, no parameter holds a Ref, no parameter shares its name with a resource, the interface of the parameters has known entries only and names parameters that exist, no output is a list, no output is an import, the description is a text, no password is written out, no DependsOn repeats what the properties already need, no mention leads to a resource that a condition leaves out, each name of a mapping is alphanumeric, and resources that are modules keep to their restrictions.", "quantifier": "for all templates, rule sets, configurations, messages of the rules, readings of numbers and specifications of attributes", "why_tests_cant": "Tests lint fixed templates and compare the findings; that no faulty declaration passes the whole command, whatever the template and the other rules, is not something samples can show.", "anchors": ["src/cfnlint/rules/parameters/Default.py:94-144", "src/cfnlint/rules/parameters/DefaultRef.py:17-29", "src/cfnlint/rules/resources/UniqueNames.py:15-20", "src/cfnlint/rules/metadata/InterfaceConfiguration.py:22-50", "src/cfnlint/rules/metadata/InterfaceParameterExists.py:22-56", "src/cfnlint/rules/outputs/Value.py:28-73", "src/cfnlint/rules/outputs/ImportValue.py:17-39", "src/cfnlint/rules/templates/Description.py:18-27", "src/cfnlint/rules/resources/properties/Password.py:20-72", "src/cfnlint/rules/resources/DependsOnObsolete.py:56-73", "src/cfnlint/rules/functions/RelationshipConditions.py:21-68", "src/cfnlint/rules/mappings/Name.py:17-18", "src/cfnlint/rules/resources/Modules.py:17-64"]}
{"id": "C137", "title": "Status 0 and the properties of particular types", "statement": "If the command ends with status 0 and the rules on the properties of particular resource types are in force, the templates keep what these rules are for: schedule expressions of event rules are rates or cron expressions, definitions of state machines have no fault, policies state no old version and have no fault and name existing actions, package properties are no texts, memory parameters are bounded, no availability zone is written down, roles of build projects have no path, no runtime is out of support, validation domains hold their domains, records are in their zones, tables define just the attributes that their keys use, and replication groups with cluster mode can fail over.", "quantifier": "for all rule sets, configurations, region specifications, tables of actions and runtimes, readers of JSON and templates of any size", "why_tests_cant": "A test runs chosen templates; that status 0 excludes every fault of these kinds in all templates is a statement about the whole path from the loop over resources through each rule to the exit code.", "anchors": ["src/cfnlint/rules/resources/events/RuleScheduleExpression.py:11-96", "src/cfnlint/rules/resources/stepfunctions/StateMachine.py:13-159", "src/cfnlint/rules/resources/iam/PolicyVersion.py:12-84", "src/cfnlint/rules/resources/properties/PropertiesTemplated.py:12-60", "src/cfnlint/rules/parameters/LambdaMemorySize.py:11-68", "src/cfnlint/rules/resources/properties/AvailabilityZone.py:11-96", "src/cfnlint/rules/resources/iam/RefWithPath.py:11-58", "src/cfnlint/rules/resources/iam/Policy.py:15-212", "src/cfnlint/rules/resources/iam/Permissions.py:15-191", "src/cfnlint/rules/resources/lmbd/DeprecatedRuntime.py:1-65", "src/cfnlint/rules/resources/certificatemanager/DomainValidationOptions.py:12-58", "src/cfnlint/rules/resources/route53/RecordSetName.py:12-59", "src/cfnlint/rules/resources/dynamodb/AttributeMismatch.py:13-100", "src/cfnlint/rules/resources/elasticache/CacheClusterFailover.py:12-114"]}
{"id": "C138", "title": "Status 0 and what properties use", "statement": "If the command ends with status 0 and the rules of the specification on what properties use are in force, then a parameter that a property refers to can only have values that the specification allows for the property and that its expression matches, no text of a property has a reference to a secret unless the property takes them, documents are no longer than allowed, and properties refer only to parameters and resources of the allowed types and to the allowed attributes. What the rules read is stated on the JSON of the specification.", "quantifier": "for all rule sets, configurations, region specifications as JSON, pattern matchers and templates of any size", "why_tests_cant": "A test runs chosen templates against the shipped specification; that status 0 excludes every such use in all templates and for any specification is a statement about the whole path from the JSON of the specification through the traversal and each rule to the exit code.", "anchors": ["src/cfnlint/rules/parameters/AllowedValue.py:13-117", "src/cfnlint/rules/parameters/AllowedPattern.py:13-120", "src/cfnlint/rules/functions/DynamicReferenceSecureString.py:12-136", "src/cfnlint/rules/resources/properties/JsonSize.py:15-125", "src/cfnlint/rules/resources/properties/ValueRefGetAtt.py:12-233"]}
{"id": "C139", "title": "Status 0 and the remaining rules of whole templates", "statement": "If the command ends with status 0 and the rules E2540, E2541, E3002, E3020, E3025, W2506 and E3000 are in force, then in every template the stages of pipelines have different names, begin with source actions and have none later, actions take what an action that ran before makes, properties have the shape that is declared for them, record sets hold what their type wants, databases have classes that are offered in the regions checked, images are given by parameters of the types of images, and resources whose type has a schema of one's own keep it.", "quantifier": "for all templates, sets of rules, configurations and specifications", "why_tests_cant": "Tests run each rule on a few templates; they cannot show that status 0 leaves no such fault in any template.", "anchors": ["src/cfnlint/rules/resources/codepipeline/CodepipelineStages.py:102-137", "src/cfnlint/rules/resources/codepipeline/CodepipelineStageActions.py:252-294", "src/cfnlint/rules/resources/properties/Properties.py:348-369", "src/cfnlint/rules/resources/route53/RecordSet.py:240-266", "src/cfnlint/rules/resources/rds/InstanceSize.py:91-99", "src/cfnlint/rules/resources/properties/ImageId.py:18-50", "src/cfnlint/rules/resources/ResourceSchema.py:18-30"]}
{"id": "C140", "title": "Status 0 with the informational rules leaves room below every limit", "statement": "When the script ends with status 0 and the rules on limits and on sizes near to them are in force (I rules are included), every size in every template - the lengths of names, the numbers of entries of the sections, the lengths of descriptions, of parameter values and of output descriptions, the numbers of attributes of mapping keys - is at most nine tenths of its documented limit; resources that hold data state a deletion and a replacement policy, no list is joined with an empty delimiter, and no list of texts or numbers that may hold an element twice does so.", "quantifier": "all templates, command line arguments and rule sets in which the rules are in force", "why_tests_cant": "A test sees single sizes on one side of a threshold; that the notice and the error together leave no gap for any size, for every section, in every run that ends with 0, is a statement over all templates.", "anchors": ["src/cfnlint/rules/common.py:11-26", "src/cfnlint/rules/common.py:29-44", "src/cfnlint/rules/mappings/ApproachingLimitAttributes.py:18-26", "src/cfnlint/rules/outputs/ApproachingLimitDescription.py:18-27", "src/cfnlint/rules/parameters/ApproachingLimitValue.py:19-63", "src/cfnlint/rules/templates/ApproachingLimitDescription.py:18-24", "src/cfnlint/rules/templates/ApproachingLimitSize.py:23-32", "src/cfnlint/rules/resources/UpdateReplacePolicyDeletionPolicyOnStatefulResourceTypes.py:18-56", "src/cfnlint/rules/functions/SubNotJoin.py:17-29", "src/cfnlint/rules/resources/properties/ListDuplicatesAllowed.py:22-104"]}
{"id": "C141", "title": "Drawing the graph shows the dependencies and does not change the report", "statement": "With --build-graph the graph written next to a template has exactly one node per resource, labelled with its type, and an edge labelled DependsOn, Ref, GetAtt or Sub exactly where a resource needs another one in that way; its edges are those E3004 searches for cycles; and whatever the templates and however the program is started, the option does not change its status.", "quantifier": "all templates, sources of templates, command lines, rule sets and drawing modules", "why_tests_cant": "That two code paths build the same graph, and that an option for a side output never changes a verdict, are statements over all templates; tests draw one template and do not compare the runs.", "anchors": ["src/cfnlint/graph.py:18-94", "src/cfnlint/graph.py:119-129", "src/cfnlint/template.py:52-61", "src/cfnlint/core.py:43-60"]}
{"id": "C142", "title": "Copies and accessors keep the marks", "statement": "A deep copy of a template value is equal to it in every value, key and mark. Every value that items_safe or get_safe gives out is the node at the path that comes with it, with the node's marks and keys, an object being without its properties that are AWS::NoValue; a default that is an object has the marks of the object asked. Without marks the results are those of the accessors on plain values.", "quantifier": "every marked template value, key, default, path and list of types", "why_tests_cant": "Values nest without bound; a mark that is lost or wrong only shows when a finding is placed.", "anchors": ["src/cfnlint/decode/node.py:45-48", "src/cfnlint/decode/node.py:73-79", "src/cfnlint/decode/node.py:108-178", "src/cfnlint/decode/node.py:205-226"]}
{"id": "C143", "title": "Update of the IAM policies", "statement": "What update_iam_policies writes is the JSON after the marker words of the download, with the three missing actions at the end of the actions of their services and everything else as downloaded. An update that fails does not touch the file; one that is stopped leaves it whole.", "quantifier": "every download, every result of json.loads and every moment of the update", "why_tests_cant": "Downloads are arbitrary and an interruption may come at any moment.", "anchors": ["src/cfnlint/maintenance.py:166-188"]}
{"id": "C144", "title": "After status 0 no event rule of a template has more than five targets", "statement": "When a run with E3021 in force ends with status 0, then for no event rule of the template and under no truth values of the conditions the property Targets has more than five elements; the counts the rule keeps between its calls do not hide a rule.", "quantifier": "all templates, all truth values of the conditions, all numbers and orders of event rules, all other rules", "why_tests_cant": "The counts are kept in the rule object between the resources, so what a call reports depends on all calls before it; tests use templates with one or two rules.", "anchors": ["src/cfnlint/rules/resources/events/RuleTargetsLimit.py:20-60", "src/cfnlint/rules/__init__.py:379-402"]}
{"id": "C145", "title": "Status 0 says exactly that no rule in force found anything", "statement": "A run in which no rule in force finds anything in any template ends with status 0, however it was started and whatever the templates before left in the cached collection; together with C127 the status of the script is 0 exactly if no rule in force found anything. In particular a template passes E1001 exactly if it has resources and no other keys than sections.", "quantifier": "all collections of rules, configurations, regions, behaviours of rules, numbers and orders of templates", "why_tests_cant": "The converse of C127 needs every stage of the run to succeed and to add nothing; the cached collection is configured anew for each template, so the number of templates matters. Tests look at single files.", "anchors": ["src/cfnlint/__main__.py:23-52", "src/cfnlint/core.py:165-248", "src/cfnlint/runner.py:44-78", "src/cfnlint/rules/templates/Base.py:22-36"]}
{"id": "C146", "title": "The updates of the regions by a pool of processes do not disturb one another", "statement": "When update_resource_specs updates the specifications of all regions by a pool of processes, then in whatever order the processes take their steps on the shared disk, each region is at every moment in a state that its own update alone could have left, it ends with the result and the files that the update would have had by itself, files of no region are untouched, all orders lead to the same disk, and the pool comes to an end.", "quantifier": "all numbers of regions, all interleavings of the steps of their processes, all disks, all answers of the servers", "why_tests_cant": "a test runs the pool under one schedule, and replaces the processes by mocks; the race for the directory needs two processes that both find it missing", "anchors": ["src/cfnlint/maintenance.py:22-85", "src/cfnlint/helpers.py:225-309", "src/cfnlint/helpers.py:37-63"]}
{"id": "C147", "title": "For rules on the whole template, status 0 is the conjunction of what the rules ask", "statement": "If every rule of the collection is called on the whole template and finds something, or fails visibly, exactly on the templates that are not right for it, then the script ends with status 0 exactly if every template is right for every rule in force. E1001, E1004, E2014, W6001, E3035, E3036, W3011, E3038, E1026, E1016, E1021, E1023, E1028 and E1018 are such rules, and what they ask together is stated without the linter.", "quantifier": "all collections of such rules, all configurations under which the run is ready, all templates and numbers of templates", "why_tests_cant": "a test sees one template and one status; that no template outside of the tests passes or fails wrongly, for all rules at once, is a statement on all of them", "anchors": ["src/cfnlint/runner.py:12-78", "src/cfnlint/core.py:170-248", "src/cfnlint/rules/__init__.py:378-426"]}
{"id": "C148", "title": "Updates of all regions one after the other", "statement": "Whatever the order in which the processes of the pool take their steps and wherever each update of all regions is stopped, the files of a region are changed only as by a sequence of attempts at that region alone. A process that fails because another made the directory of the metadata before it leaves the files of its region as they were and the directory in place, and the next update that runs to its end brings that region to the version of the server, if the updates before ended well or failed in that way.", "quantifier": "all sequences of updates, all interleavings and interruptions of the processes in each, all answers of the servers, all initial disks", "why_tests_cant": "A test runs one schedule of one update. The statement is about every schedule of every number of updates, each stopped anywhere.", "anchors": ["src/cfnlint/maintenance.py:22-85", "src/cfnlint/helpers.py:225-310"]}
{"id": "C149", "title": "Where sections are objects of objects, status 0 for twenty-five rules is spelt out", "statement": "If every rule of the collection is called on the whole template and, among the templates of some kind, finds something or fails visibly exactly on those that are not right for it, then for templates of this kind the script ends with status 0 exactly if every template is right for every rule in force. Among the templates whose parameters, resources, mappings and outputs are objects with texts as names and objects as members, E2001, E2002, E2003, E3006, E6004, E7002, E6001, E6002, E6005, E3007 and E7003 are such rules; together with the fourteen rules of C147 their status 0 says that the templates are well made and their sections well formed, both stated without the linter.", "quantifier": "all kinds of templates, all collections of such rules, all configurations under which the run is ready, all templates of the kind and numbers of templates", "why_tests_cant": "a test sees one template and one status; that the status is right for every template of the kind, with all rules at once, is a statement on all of them", "anchors": ["src/cfnlint/runner.py:12-78", "src/cfnlint/core.py:170-248", "src/cfnlint/rules/__init__.py:378-426", "src/cfnlint/rules/common.py:47-53"]}
{"id": "C150", "title": "Status 0 spelt out for thirty-nine rules on ordinary templates", "statement": "Among templates whose parameters, resources, mappings and outputs are objects with texts as names and objects as members, whose conditions are an object and whose description is a text, the rules E2010, E3010, E6010, E7010, E2011, E3011, E6011, E7011, E1003, E8001, E8004, E8005, E8006 and E7001 find something exactly if there are more entries in the section than the limit, a name of more than 255 characters, a description of more than 1024 characters, a condition that is no call, a logical function without a list of as many calls as it takes, or a mapping that is no map of maps of values. With them and the rules of C149, thirty-nine in all, the script ends with status 0 exactly if every template is well made, its sections are well formed, and it is within these bounds.", "quantifier": "all ordinary templates and numbers of templates, all messages", "why_tests_cant": "a test sees one template and one status; that the status is right for every ordinary template, with all rules at once, is a statement on all of them", "anchors": ["src/cfnlint/runner.py:12-78", "src/cfnlint/core.py:170-248", "src/cfnlint/rules/common.py:11-53", "src/cfnlint/rules/conditions/Configuration.py", "src/cfnlint/rules/mappings/Configuration.py"]}
{"id": "C151", "title": "Status 0 spelt out for forty-five rules, names included", "statement": "Among ordinary templates in which the functions that name something have the documented forms, no reference merely begins with a declared name, and no variable of Fn::Sub has the name of a parameter, the rules E1012, E8002, W8001, W2001, W7001 and E3004 find something exactly if a reference names nothing, a condition is used and not defined, a condition, a parameter or a mapping is defined and not used, or a resource depends on itself. With them and the rules of C150, forty-five in all, the script ends with status 0 exactly if every template is well made, its sections are well formed, it is within bounds, and its names are linked: each refers to something, everything declared is used, and the dependencies have no circle.", "quantifier": "all templates of this shape and numbers of templates, all messages, every search for cycles that is correct, every matcher of patterns that takes plain names for prefixes", "why_tests_cant": "a test sees one template and one status; that the status is right for every template of the shape, with all rules at once, is a statement on all of them", "anchors": ["src/cfnlint/runner.py:12-78", "src/cfnlint/core.py:170-248", "src/cfnlint/rules/functions/RefExist.py", "src/cfnlint/rules/conditions/Exists.py", "src/cfnlint/rules/conditions/Used.py", "src/cfnlint/rules/parameters/Used.py", "src/cfnlint/rules/mappings/Used.py", "src/cfnlint/rules/resources/CircularDependency.py"]}
{"id": "C152", "title": "Every bit of the exit status is what the rules in force say", "statement": "For a run that is ready to start (all templates decoded, configuration usable, rules can be set up and configured, regions supported, output can be printed), in which no template is empty, no resource asks to ignore anything and E0002 is in force: bit 8 of the exit status is set exactly if some rule of level I in force returns results for some template, bit 4 exactly if some rule of level W does, bit 2 exactly if some rule of level E does or any rule in force breaks (raises, or returns a result without a place), and no other bit is ever set; the status is the sum of these.", "quantifier": "all lists of templates, rule sets, configurations, rule behaviours, and both ways of starting the program", "why_tests_cant": "tests check a few exit codes of fixtures; that the code is the union of the levels over all templates, with broken rules counted as errors and whole calls lost when one result has no place, is a statement over all combinations of rules and templates", "anchors": ["src/cfnlint/__main__.py:23-52", "src/cfnlint/core.py:63-74", "src/cfnlint/rules/__init__.py:243-333", "src/cfnlint/runner.py:44-78"]}
{"id": "C153", "title": "Every bit of the exit status when resources ask to ignore rules", "statement": "As C152, for templates whose resources carry cfn-lint directives (other than for E0002): bits 8, 4 and 2 of the exit status are set exactly if some rule of level I, W, E in force has, in a call all of whose results have a place, a result that is not ignored (no directive for the id of the rule touches its place, or the rule is mandatory), where bit 2 is also set exactly if any rule in force breaks; no other bit is ever set.", "quantifier": "all lists of templates, directives, rule sets, configurations, rule behaviours, and both ways of starting the program", "why_tests_cant": "a directive may hide a finding that is a duplicate of one it does not hide, or hide the only finding of a level; that the exit status follows is a statement over all combinations of rules, places and directives", "anchors": ["src/cfnlint/__main__.py:23-52", "src/cfnlint/core.py:63-74", "src/cfnlint/runner.py:44-78", "src/cfnlint/template.py:202-219"]}
{"id": "C154", "title": "The exit status of several templates is the union of their exit statuses", "statement": "For a run as in C153 on a list of templates: a bit of the exit status is set exactly if it is set in the exit status of the run on some one of the templates by itself. So the status of a run on two lists one after the other is the bitwise or of the statuses of the runs on each, and neither the order of the templates nor repetitions matter, although the collection of rules and the template part of the configuration are carried from one template to the next.", "quantifier": "all lists of templates, directives, rule sets, configurations, rule behaviours, and both ways of starting the program", "why_tests_cant": "the rules and the configuration are shared and mutated between templates of one run; that nothing leaks into the status is a statement over all orders and all pairs of templates", "anchors": ["src/cfnlint/__main__.py:23-52", "src/cfnlint/core.py:63-74", "src/cfnlint/core.py:165-210"]}
{"id": "C155", "title": "The exit status depends on nothing but the rules in force and grows with them", "statement": "For two runs as in C153 on the same templates: if on every template every rule in force in the first is in force in the second and the second ignores no finding the first does not ignore, every bit of the exit status of the first is set in that of the second. So runs with the same rules in force that ignore the same have the same exit status, whatever the other rules, regions, options, output format and way of starting; in particular loading rules that are not in force on any template changes nothing. Nor does ignoring fewer checks, including more, having more mandatory checks, allowing experimental rules or loading more rules ever clear a bit.", "quantifier": "all pairs of rule sets and configurations, all lists of templates, directives and rule behaviours", "why_tests_cant": "it relates two runs with different rule sets and configurations; enabling a rule could in principle hide findings of another through the duplicate filter or through shared state", "anchors": ["src/cfnlint/rules/__init__.py:192-234", "src/cfnlint/runner.py:44-78", "src/cfnlint/core.py:63-74", "src/cfnlint/core.py:165-210"]}
{"id": "C156", "title": "A template is reported on as if it were linted alone", "statement": "A run that is ready to start (as C145) on a list of templates completes, and the findings for each template, in order, are exactly those of the run on that template alone, provided a rule does the same whatever its options, or that no rule is configured by any template or configuration: neither the cached collection of rules nor the configuration taken from the metadata of earlier templates influences later ones.", "quantifier": "all lists of templates (with configuration and directives in their metadata), rule sets, configurations and rule behaviours", "why_tests_cant": "the collection of rules is cached in a global and reconfigured for each template, so leaks show only for particular sequences of templates with particular configurations; tests lint templates one by one", "anchors": ["src/cfnlint/core.py:165-210", "src/cfnlint/__main__.py:30-38", "src/cfnlint/rules/__init__.py:192-234", "src/cfnlint/rules/__init__.py:378-408"]}
{"id": "C157", "title": "Templates that cannot be decoded do not influence the others", "statement": "When neither the command, the configuration files nor the metadata of any decodable template asks to ignore templates that cannot be decoded, rules do the same whatever their options, and the run on the decodable templates is ready to start (as C145), a run on a mixed list completes: for every template that cannot be decoded it reports exactly the errors of decoding, and for every other template exactly what the run on that template alone reports.", "quantifier": "all lists of templates mixing decodable and undecodable ones in any order, rule sets, configurations and rule behaviours", "why_tests_cant": "the configuration used for a template that cannot be decoded is the one left by the templates before it, so an influence shows only for particular sequences; tests lint templates one by one", "anchors": ["src/cfnlint/core.py:165-210", "src/cfnlint/__main__.py:30-38"]}
