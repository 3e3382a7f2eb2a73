{
 "claims": [
  {
   "property": "C01",
   "status": "proved",
   "theorems": [
    "CfnLint.C01_enabled_iff",
    "CfnLint.C01_enabled_total",
    "CfnLint.C01_mandatory_beats_ignore",
    "CfnLint.C01_empty_ignore_inert",
    "CfnLint.C01_mandatory_no_resurrection"
   ],
   "note": ""
  },
  {
   "property": "C02",
   "status": "proved",
   "theorems": [
    "CfnLint.C02_active_rules",
    "CfnLint.C02_history_independent"
   ],
   "note": ""
  },
  {
   "property": "C03",
   "status": "proved",
   "theorems": [
    "CfnLint.C03_default_on",
    "CfnLint.C03_opt_in"
   ],
   "note": ""
  },
  {
   "property": "C04",
   "status": "partial",
   "theorems": [
    "CfnLint.C04_options_violated",
    "CfnLint.C04_options_partial",
    "CfnLint.C04_not_mentioned"
   ],
   "note": "Violated: options set for one template stay in effect for later templates that do not mention the rule (C04_options_violated). Partial: holds for mentioned rules and first use."
  },
  {
   "property": "C05",
   "status": "partial",
   "theorems": [
    "CfnLint.C05_isolation_violated",
    "CfnLint.C05_isolation_partial",
    "CfnLint.C05_isolation_no_crash",
    "CfnLint.C05_findings_kept"
   ],
   "note": "Violated when E0002 is disabled: run_check returns None and extend(None) aborts the run (C05_isolation_violated). Partial: isolation holds when E0002 is enabled."
  },
  {
   "property": "C06",
   "status": "proved",
   "theorems": [
    "CfnLint.C06_unique_ordered_complete"
   ],
   "note": ""
  },
  {
   "property": "C07",
   "status": "partial",
   "theorems": [
    "CfnLint.C07_filter_exact",
    "CfnLint.C07_directives_violated",
    "CfnLint.C07_directives_partial",
    "CfnLint.C07_mandatory_protected",
    "CfnLint.C07_other_rule_unaffected",
    "CfnLint.C07_order_irrelevant",
    "CfnLint.C07_directive_table"
   ],
   "note": "Violated for resources written on one line (C07_directives_violated); exact filter semantics proved (C07_filter_exact) and the documented meaning for multi-line resources (C07_directives_partial)."
  },
  {
   "property": "C08",
   "status": "partial",
   "theorems": [
    "CfnLint.C08_other_resource_violated",
    "CfnLint.C08_other_resource_partial"
   ],
   "note": "Violated when two resources share a line (C08_other_resource_violated); holds for resources on disjoint lines."
  },
  {
   "property": "C09",
   "status": "proved",
   "theorems": [
    "CfnLint.C09_exit_code",
    "CfnLint.C09_zero_iff",
    "CfnLint.C09_order_multiplicity",
    "CfnLint.C09_union"
   ],
   "note": ""
  },
  {
   "property": "C10",
   "status": "proved",
   "theorems": [
    "CfnLint.C10_sorted_report"
   ],
   "note": ""
  },
  {
   "property": "C11",
   "status": "partial",
   "theorems": [
    "CfnLint.C11_swallowed_violated",
    "CfnLint.C11_every_exception_lost",
    "CfnLint.C11_setup_failure_partial"
   ],
   "note": "Violated: every exception of the rule run is swallowed (C11_every_exception_lost). Partial: failures before the rule run are never turned into a report."
  },
  {
   "property": "C12",
   "status": "proved",
   "theorems": [
    "CfnLint.C12_regions"
   ],
   "note": ""
  },
  {
   "property": "C13",
   "status": "proved",
   "theorems": [
    "CfnLint.C13_transform_short_circuit",
    "CfnLint.C13_rules_not_run",
    "CfnLint.C13_rules_run"
   ],
   "note": ""
  },
  {
   "property": "C14",
   "status": "partial",
   "theorems": [
    "CfnLint.C14_history_violated",
    "CfnLint.C14_history_partial"
   ],
   "note": "Violated: Metadata of an earlier template decides whether a later parse error is reported. Partial: holds unless an earlier template sets one of the three responsible options."
  },
  {
   "property": "C15",
   "status": "proved",
   "theorems": [
    "CfnLint.C15_precedence",
    "CfnLint.C15_options",
    "CfnLint.C15_include_checks",
    "CfnLint.C15_regions",
    "CfnLint.C15_regions_default"
   ],
   "note": ""
  },
  {
   "property": "C16",
   "status": "partial",
   "theorems": [
    "CfnLint.C16_parse_error_violated",
    "CfnLint.C16_mandatory_active_partial",
    "CfnLint.C07_mandatory_protected"
   ],
   "note": "Violated for parse errors (E0000 can be suppressed by the Metadata of an earlier template). Proved for every rule of the collection: active (C16_mandatory_active_partial) and never filtered by directives (C07_mandatory_protected)."
  },
  {
   "property": "C17",
   "status": "proved",
   "theorems": [
    "CfnLint.C17_template_whitelist",
    "CfnLint.C17_not_settable"
   ],
   "note": ""
  },
  {
   "property": "C18",
   "status": "proved",
   "theorems": [
    "CfnLint.C18_project_wins",
    "CfnLint.C18_user_kept",
    "CfnLint.C18_nothing_else",
    "CfnLint.C18_idempotent"
   ],
   "note": ""
  },
  {
   "property": "C19",
   "status": "partial",
   "theorems": [
    "CfnLint.C19_parse_plain",
    "CfnLint.C19_malformed_rejected",
    "CfnLint.C19_rejected_exits",
    "CfnLint.C19_arguments_accumulate",
    "CfnLint.C19_misread_violated"
   ],
   "note": "Violated: a value containing = or : is silently truncated (C19_misread_violated). Proved: separator-free items parse to exactly the map they denote, malformed items are rejected."
  },
  {
   "property": "C20",
   "status": "partial",
   "theorems": [
    "CfnLint.C20_selection",
    "CfnLint.C20_none",
    "CfnLint.C20_once_violated",
    "CfnLint.C20_once_partial"
   ],
   "note": "Selection and order proved; 'each once' is violated by overlapping patterns (C20_once_violated) and proved for non-overlapping ones."
  },
  {
   "property": "C21",
   "status": "proved",
   "theorems": [
    "CfnLint.C21_exactly_requested",
    "CfnLint.C21_unknown",
    "CfnLint.C21_distinct"
   ],
   "note": "Scenarios have exactly the requested names; unknown names give no scenario; for distinct requested names no scenario is returned twice."
  },
  {
   "property": "C22",
   "status": "partial",
   "theorems": [
    "CfnLint.C22_complete_partial",
    "CfnLint.C22_five_violated",
    "CfnLint.C22_two_expressions"
   ],
   "note": "Violated with five unrelated conditions (C22_five_violated) and, even for related conditions, when both operands of Equals are expressions (C22_two_expressions). Partial: related conditions comparing expressions with text or integer literals."
  },
  {
   "property": "C23",
   "status": "partial",
   "theorems": [
    "CfnLint.C23_sound_partial",
    "CfnLint.C23_two_expressions_violated"
   ],
   "note": "Violated when both operands of Equals are expressions (C23_two_expressions_violated). Partial: related conditions comparing expressions with literals."
  },
  {
   "property": "C24",
   "status": "partial",
   "theorems": [
    "CfnLint.C24_agrees_partial",
    "CfnLint.C24_literals_violated",
    "CfnLint.C24_booleans_violated"
   ],
   "note": "Violated for Equals of two literals and for boolean literals. Partial: Equals of an expression with a text or integer literal, arbitrarily nested And/Or/Not/named references."
  },
  {
   "property": "C25",
   "status": "partial",
   "theorems": [
    "CfnLint.C25_missing_violated",
    "CfnLint.C25_only_attribute_error",
    "CfnLint.C25_request_partial",
    "CfnLint.C25_load_partial"
   ],
   "note": "Violated: a condition naming a missing condition makes get_scenarios raise AttributeError (C25_missing_violated). Proved: no other exception is possible, well-formed conditions never raise, and load completely within some recursion limit."
  },
  {
   "property": "C26",
   "status": "proved",
   "theorems": [
    "CfnLint.C26_order_independent"
   ],
   "note": "Holds for every template in which no literal equals the sha1 hash the code uses as key for an expression (NoHashLiterals), whatever exception loading met."
  },
  {
   "property": "C27",
   "status": "partial",
   "theorems": [
    "CfnLint.C27_search_exact",
    "CfnLint.C27_globals_violated",
    "CfnLint.C27_search_partial"
   ],
   "note": "Exact result set proved (C27_search_exact). Violated as stated after a transform: results from the saved Globals section carry paths that are not rooted in the template (C27_globals_violated). Partial: full statement without saved Globals."
  },
  {
   "property": "C28",
   "status": "partial",
   "theorems": [
    "CfnLint.C28_root_violated",
    "CfnLint.C28_list_item_violated",
    "CfnLint.C28_location_partial",
    "CfnLint.C28_last_element",
    "CfnLint.C28_no_lists",
    "CfnLint.C28_position"
   ],
   "note": "Violated: the empty path raises IndexError (C28_root_violated), and list items on the way up are passed over (C28_list_item_violated). Partial: never raises for existing non-empty paths; the location is that of the last element, else of the deepest marked object key; full statement when no lists lie on the path (C28_no_lists)."
  },
  {
   "property": "C29",
   "status": "partial",
   "theorems": [
    "CfnLint.C29_null_branch_violated",
    "CfnLint.C29_values_partial",
    "CfnLint.C29_values_exact",
    "CfnLint.C29_null_raises"
   ],
   "note": "Violated by a null branch (TypeError). Partial: the full statement when no branch is null; C29_null_raises shows that the hypothesis is exact."
  },
  {
   "property": "C30",
   "status": "partial",
   "theorems": [
    "CfnLint.C30_items_safe",
    "CfnLint.C30_items_safe_once",
    "CfnLint.C30_cleaned_to_noValue_violated",
    "CfnLint.C30_never_noValue_partial",
    "CfnLint.C30_list_items_safe",
    "CfnLint.C30_get_safe",
    "CfnLint.C30_get_safe_absent"
   ],
   "note": "Exact set of yielded objects proved (C30_items_safe). 'Never a NoValue reference' is violated by an object with Ref beside other keys (C30_cleaned_to_noValue_violated) and holds otherwise."
  },
  {
   "property": "C31",
   "status": "partial",
   "theorems": [
    "CfnLint.C31_met_on_path",
    "CfnLint.C31_available_partial",
    "CfnLint.C31_deployment_covered_partial",
    "CfnLint.C31_report_real_partial",
    "CfnLint.C31_false_branch_violated",
    "CfnLint.C31_contradiction_violated"
   ],
   "note": "Violated: a reference in the false branch of the resource's own condition is called available (C31_false_branch_violated); contradictory branches are reported (C31_contradiction_violated). Partial: exact otherwise; composed with C22/C23 for deployments."
  },
  {
   "property": "C32",
   "status": "partial",
   "theorems": [
    "CfnLint.C32_nested_violated",
    "CfnLint.C32_root_violated",
    "CfnLint.C32_null_violated",
    "CfnLint.C32_project_partial",
    "CfnLint.C32_deep_partial",
    "CfnLint.C32_no_if_left_partial",
    "CfnLint.C32_deep_no_if_left",
    "CfnLint.C32_unchanged",
    "CfnLint.C32_objects_partial",
    "CfnLint.C32_deep_objects_partial",
    "CfnLint.C32_deep_no_scenarios",
    "CfnLint.C32_deployment_covered_partial",
    "CfnLint.C32_novalue_violated"
   ],
   "note": "Violated: Fn::If inside nested objects is not resolved, the branch of a root Fn::If is not processed, NoValue properties stay (null in the deep function, unchanged without conditions). Partial: equals the projection for Fn::Ifs at the places the linter looks; deep function equals it after dropping nulls; composed with C22 for deployments."
  },
  {
   "property": "C33",
   "status": "partial",
   "theorems": [
    "CfnLint.C33_reported_partial",
    "CfnLint.C33_no_false_alarm",
    "CfnLint.C33_exact_partial",
    "CfnLint.C33_prefix_violated",
    "CfnLint.C33_number_violated"
   ],
   "note": "Violated: names are compared by prefix (re.match), so Ref Environment is accepted when a parameter Env exists; numeric Refs make the rule raise. Partial: exact characterisation; no false alarms; exact when no declared name is a proper prefix."
  },
  {
   "property": "C34",
   "status": "proved",
   "theorems": [
    "CfnLint.C34_document_decodes",
    "CfnLint.C34_round_trip",
    "CfnLint.C34_model_total"
   ],
   "note": "Model/Json.lean models py_scanstring, _decode_uXXXX, CfnJSONObject, JSONArray, _scan_once, check_duplicates and json.loads on arbitrary text. C34_document_decodes: every text derivable in the RFC 8259 grammar (Spec/Json, any blanks and escapes) decodes to the value it denotes; C34_round_trip: for a json.dumps-like serialiser. Assumes Python's int(text,16) reads four hex digits (ReadsHex). Floats are kept as text; marks not modelled."
  },
  {
   "property": "C35",
   "status": "proved",
   "theorems": [
    "CfnLint.C35_document_rejected",
    "CfnLint.C35_never_decodes"
   ],
   "note": "C35_document_rejected: every grammatical document with a duplicated key or null member (any depth) is rejected with the decoder's own JSONDecodeError. C35_never_decodes: no text whatsoever decodes to such a value. Nulls in arrays and at top level are accepted by the code; the property speaks of null values of objects."
  },
  {
   "property": "C36",
   "status": "partial",
   "theorems": [
    "CfnLint.C36_tags",
    "CfnLint.C36_null_partial",
    "CfnLint.C36_null_anywhere_partial",
    "CfnLint.C36_duplicate_partial",
    "CfnLint.C36_equal_keys_partial",
    "CfnLint.C36_distinct_accepted",
    "CfnLint.C36_duplicate_violated",
    "CfnLint.C36_violated",
    "CfnLint.C36_short_form_partial",
    "CfnLint.C36_short_violated",
    "CfnLint.C36_getatt_violated"
   ],
   "note": "Violated as stated: mappings under a short-form tag are built by PyYAML's construct_mapping without the duplicate check (C36_duplicate_violated, C36_violated), nodes in a !GetAtt list are not constructed at all (C36_getatt_violated), and !Ref 1 differs from Ref: 1 (C36_short_violated). Proved: nulls rejected everywhere outside !GetAtt lists, duplicates rejected in every untagged mapping there, short form = long form (values and failures) when arguments are text/distinct keys. Node trees are after composition and merge-key flattening; float/date keys not modelled."
  },
  {
   "property": "C37",
   "status": "partial",
   "theorems": [
    "CfnLint.C37_total_partial",
    "CfnLint.C37_reader_released",
    "CfnLint.C37_second_file_violated",
    "CfnLint.C37_unhashable_violated",
    "CfnLint.C37_getatt_violated",
    "CfnLint.C37_faithful",
    "CfnLint.C37_empty_document",
    "CfnLint.C37_yaml_error_place",
    "CfnLint.C37_no_value_place",
    "CfnLint.C37_construction_error_place",
    "CfnLint.C37_violated",
    "CfnLint.C37_unreadable_place"
   ],
   "note": "Violated as stated: decode raises RuntimeError for the file after an undecodable one when stdin is not a terminal (fileinput state; C37_second_file_violated), TypeError for collection keys such as {{a: b}: c} (C37_unhashable_violated), AttributeError for !GetAtt with a mapping (C37_getatt_violated). C37_total_partial: total for all contents and I/O outcomes of both reads otherwise; C37_reader_released shows the busy reader only arises from undecodable contents. PyYAML's scanner/parser/composer is a parameter assumed to raise only YAMLError."
  },
  {
   "property": "C38",
   "status": "partial",
   "theorems": [
    "CfnLint.C38_merge_leaves",
    "CfnLint.C38_merge_idempotent",
    "CfnLint.C38_merge_fails_iff",
    "CfnLint.C38_set_leaves",
    "CfnLint.C38_set_idempotent",
    "CfnLint.C38_patterns_partial",
    "CfnLint.C38_dot_violated"
   ],
   "note": "C38_statement over all patterns is refuted by C38_dot_violated: patterns are regular expressions but for their stars."
  },
  {
   "property": "C39",
   "status": "partial",
   "theorems": [
    "CfnLint.C39_value_partial",
    "CfnLint.C39_annotated",
    "CfnLint.C39_idempotent",
    "CfnLint.C39_violated"
   ],
   "note": "Model/Convert.lean. Annotation and idempotence hold for all data; the value is kept for text keys and not kept for integer keys (C39_violated)."
  },
  {
   "property": "C40",
   "status": "partial",
   "theorems": [
    "CfnLint.C40_findings_are_cycles",
    "CfnLint.C40_reported_iff_partial",
    "CfnLint.C40_violated"
   ],
   "note": "Model/Graph.lean: Graph.__init__, get_cycles and rule E3004; networkx.find_cycle enters by its contract. Findings are always real cycles; every cycle is found when Fn::Sub variables are letters, digits and dots, and missed otherwise (C40_violated)."
  },
  {
   "property": "C41",
   "status": "partial",
   "theorems": [
    "CfnLint.C41_idempotent",
    "CfnLint.C41_rest_untouched",
    "CfnLint.C41_properties_untouched_partial",
    "CfnLint.C41_s3_untouched_partial",
    "CfnLint.C41_local_replaced_partial",
    "CfnLint.C41_inline_violated",
    "CfnLint.C41_application_violated",
    "CfnLint.C41_function_gains_reference",
    "CfnLint.C41_alias_parameters",
    "CfnLint.C41_alias_kinds"
   ],
   "note": "Proved for every template: a second run changes nothing; other sections, other keys of a resource and all other properties are untouched; local paths are replaced. Violated in full: an Api with DefinitionBody, Auth or Cors gets its body replaced by the empty text (C41_inline_violated), and the S3 Location of an Application is overwritten (C41_application_violated); the _partial theorems exclude exactly these."
  },
  {
   "property": "C42",
   "status": "partial",
   "theorems": [
    "CfnLint.C42_parseable_produced_iff",
    "CfnLint.C42_parseable_lines_partial",
    "CfnLint.C42_parseable_count_partial",
    "CfnLint.C42_parseable_recoverable_partial",
    "CfnLint.C42_message_exact",
    "CfnLint.C42_violated",
    "CfnLint.C42_colon_violated",
    "CfnLint.C42_json"
   ],
   "note": "JSON: proved, the output denotes exactly the list of records (grammar of RFC 8259, shown unambiguous) in order. Parseable: one line per finding and recoverable fields proved for file names and ids without colon or line feed (_partial); violated in general: the message of a YAMLError is an exception object, on which the formatter raises TypeError (C42_violated), and a colon in the file name makes lines ambiguous (C42_colon_violated)."
  },
  {
   "property": "C43",
   "status": "partial",
   "theorems": [
    "CfnLint.C43_exactly_when",
    "CfnLint.C43_new_version_partial",
    "CfnLint.C43_uninterrupted_partial",
    "CfnLint.C43_stale_violated",
    "CfnLint.C43_stale_forever",
    "CfnLint.C43_torn_violated",
    "CfnLint.C43_error_violated",
    "CfnLint.C43_untagged_violated",
    "CfnLint.C43_patches_violated"
   ],
   "note": "Violated: the ETag is saved before the specification is written, so an interruption in between leaves a stale specification that later updates skip (C43_stale_violated, C43_stale_forever); a torn metadata file makes every later update raise (C43_torn_violated); the same happens without interruption when processing raises, an answer has no ETag or the patches change. Exact condition for recovery: C43_exactly_when. Partial: clean histories, and servers that move to a new tag."
  },
  {
   "property": "C44",
   "status": "partial",
   "theorems": [
    "CfnLint.C44_path_correct",
    "CfnLint.C44_once",
    "CfnLint.C44_registered",
    "CfnLint.C44_sound_partial",
    "CfnLint.C44_complete_partial",
    "CfnLint.C44_condition_violated",
    "CfnLint.C44_map_violated",
    "CfnLint.C44_list_type_violated",
    "CfnLint.C44_no_properties_violated",
    "CfnLint.C44_no_value_violated",
    "CfnLint.C44_list_branch_violated"
   ],
   "note": "The traversal of rules/__init__.py:259-376 is modelled with its recursion. Proved for all inputs: every invocation carries the value standing at the path it is given (C44_path_correct), no path is visited twice (C44_once), rules see exactly the visits of the types they register for (C44_registered). Soundness needs Fn::If branches at single positions not to be lists and Fn::If to stand alone (Tidy). Completeness holds for what the code follows (Followed). The full statement is refuted: lists given by a property-level Fn::If, maps of objects, list-alias types and conditional objects of types without properties are not visited; AWS::NoValue list items and items of list branches are visited although they are not objects of the type."
  },
  {
   "property": "C45",
   "status": "partial",
   "theorems": [
    "CfnLint.C45_name_limit_partial",
    "CfnLint.C45_name_notice_partial",
    "CfnLint.C45_number_partial",
    "CfnLint.C45_never_both",
    "CfnLint.C45_numeric_key_violated",
    "CfnLint.C45_template_size",
    "CfnLint.C45_template_description",
    "CfnLint.C45_attributes_partial",
    "CfnLint.C45_output_description_partial",
    "CfnLint.C45_values_partial"
   ],
   "note": "Boundaries proved exact, including the IEEE rounding of 0.9 * limit, for names, counts, mapping attributes, output descriptions, parameter values, template description and file size; never both is proved for every template. Full statement violated: a numeric key in the section makes len() raise and no name is reported (C45_numeric_key_violated). Partial: sections that are objects named by texts."
  },
  {
   "property": "C46",
   "status": "proved",
   "theorems": [
    "CfnLint.C46_listing",
    "CfnLint.C46_columns",
    "CfnLint.C46_produced",
    "CfnLint.C46_totals"
   ],
   "note": "Proved for every list of findings; the totals leave out findings of rules whose id starts with a letter other than E, W, I (stated as an equivalence)."
  },
  {
   "property": "C47",
   "status": "partial",
   "theorems": [
    "CfnLint.C47_failure_text",
    "CfnLint.C47_failures",
    "CfnLint.C47_once_partial",
    "CfnLint.C47_cases",
    "CfnLint.C47_parse_error_violated",
    "CfnLint.C47_violated",
    "CfnLint.C47_no_rules"
   ],
   "note": "Violated: E0000, E0001 and E0002 are in no collection, so their findings are dropped, and without rules (last template unreadable) nothing is printed. The exact set of reported failures is C47_failures; C47_once_partial covers findings of enabled rules of the collection. The XML serialisation (junit_xml) is not modelled."
  },
  {
   "property": "C48",
   "status": "partial",
   "theorems": [
    "CfnLint.C48_violated",
    "CfnLint.C48_ascii_partial",
    "CfnLint.C48_sound_partial"
   ],
   "note": "Violated: the rule counts characters, 1024 accented letters are 2048 bytes and pass (C48_violated). Partial: exact for ASCII descriptions, and no false alarms for any text."
  },
  {
   "property": "C49",
   "status": "partial",
   "theorems": [
    "CfnLint.C49_exact_partial",
    "CfnLint.C49_no_dot_violated",
    "CfnLint.C49_stack_set_violated",
    "CfnLint.C49_nested_violated",
    "CfnLint.C49_no_resource_violated",
    "CfnLint.C49_star_violated",
    "CfnLint.C49_short",
    "CfnLint.C49_computed",
    "CfnLint.C49_structure"
   ],
   "note": "Full statement refuted: an argument without a dot raises ValueError and loses every finding (C49_no_dot_violated); attributes of AWS::CloudFormation::StackSet are never checked because the type test is by prefix; an existing dotted attribute is reported when its first part is an attribute as well; '.Arn' is accepted; 'R.*.x' of a custom resource is reported. C49_exact_partial: the rule ends normally and is exact for specifications where no attribute continues another (PlainAttrs) and templates without these shapes (PlainGetAtts), with modules and map attributes covered."
  },
  {
   "property": "C50",
   "status": "partial",
   "theorems": [
    "CfnLint.C50_mandatory_violated",
    "CfnLint.C50_experimental_violated",
    "CfnLint.C50_listed_only_violated",
    "CfnLint.C50_listed_exact",
    "CfnLint.C50_run_exact",
    "CfnLint.C50_same_partial",
    "CfnLint.C50_list_only",
    "CfnLint.C50_files"
   ],
   "note": "C50_listed_exact and C50_run_exact determine both sets for every well-typed configuration; they differ (three witnesses) because the mandatory checks are passed in the position of include_experimental. C50_same_partial gives the conditions under which listing and run agree."
  },
  {
   "property": "C51",
   "status": "partial",
   "theorems": [
    "CfnLint.C51_module_violated",
    "CfnLint.C51_empty_template_violated",
    "CfnLint.C51_severity_violated",
    "CfnLint.C51_ignored_violated",
    "CfnLint.C51_zero_partial",
    "CfnLint.C51_completed",
    "CfnLint.C51_failure"
   ],
   "note": "Fails for python -m cfnlint (ValueError/TypeError swallowed), for empty templates, for rule ids with another first letter and for ignored parse errors; C51_zero_partial proves the claim with exactly these excluded. C51_completed and C51_failure are unconditional."
  },
  {
   "property": "C52",
   "status": "partial",
   "theorems": [
    "CfnLint.C52_dispatch_partial",
    "CfnLint.C52_places",
    "CfnLint.C52_transform_violated",
    "CfnLint.C52_null_branch_violated",
    "CfnLint.C52_resources"
   ],
   "note": "Proved for the functions the code knows and values without a null branch (C52_dispatch_partial, C52_places, C52_resources); Fn::Transform is passed to the value check and a null branch raises (witnesses)."
  },
  {
   "property": "C53",
   "status": "partial",
   "theorems": [
    "CfnLint.C53_exact_partial",
    "CfnLint.C53_empty_if_violated",
    "CfnLint.C53_untyped_violated"
   ],
   "note": "Exact for templates in which every Fn::If is a list naming a condition first, resources with a condition have a type and outputs are objects. An empty Fn::If list raises; a use by a resource without a type does not count."
  },
  {
   "property": "C54",
   "status": "partial",
   "theorems": [
    "CfnLint.C54_names_partial",
    "CfnLint.C54_place_violated",
    "CfnLint.C54_each_use_violated"
   ],
   "note": "Proved: the names reported are exactly the used but undefined conditions, each once. The place is wrong for uses in Conditions and Outputs (name of the condition instead of the place of the use) and only the last of several uses is reported."
  },
  {
   "property": "C55",
   "status": "partial",
   "theorems": [
    "CfnLint.C55_accepts_only_json_partial",
    "CfnLint.C55_accepts_exactly_partial",
    "CfnLint.C55_unambiguous",
    "CfnLint.C55_nan_violated",
    "CfnLint.C55_escape_violated"
   ],
   "note": "Proved for values without NaN and infinities and for an integer reader that reads hexadecimal digits only: accepted texts are exactly the JSON documents without duplicate keys and null members. NaN and escapes with a sign are accepted although they are not JSON."
  },
  {
   "property": "C56",
   "status": "partial",
   "theorems": [
    "CfnLint.C56_exact_partial",
    "CfnLint.C56_sound_partial",
    "CfnLint.C56_unique",
    "CfnLint.C56_empty_braces_violated",
    "CfnLint.C56_nested_violated"
   ],
   "note": "Exact for well-formed texts, sound for every text. Empty braces swallow the next variable and nested braces give a wrong name."
  },
  {
   "property": "C57",
   "status": "partial",
   "theorems": [
    "CfnLint.C57_exact_partial",
    "CfnLint.C57_reported_partial",
    "CfnLint.C57_empty_sub_violated",
    "CfnLint.C57_shadow_violated"
   ],
   "note": "Exact for templates with well-formed Fn::Sub that define no variable with the name of a parameter; sound without the second condition. An empty list raises, and a variable the Fn::Sub defines itself counts as a use."
  },
  {
   "property": "C58",
   "status": "partial",
   "theorems": [
    "CfnLint.C58_exact_partial",
    "CfnLint.C58_empty_violated"
   ],
   "note": "Exact for templates whose calls are lists that begin with a name or a function. An empty list raises."
  },
  {
   "property": "C59",
   "status": "partial",
   "theorems": [
    "CfnLint.C59_unneeded_partial",
    "CfnLint.C59_unused_partial",
    "CfnLint.C59_no_text_violated"
   ],
   "note": "Exact for templates with well-formed Fn::Sub. A list of two elements that does not begin with a text makes W1020 raise."
  },
  {
   "property": "C60",
   "status": "partial",
   "theorems": [
    "CfnLint.C60_required_names",
    "CfnLint.C60_reports",
    "CfnLint.C60_lists",
    "CfnLint.C60_complete_partial",
    "CfnLint.C60_sound_partial",
    "CfnLint.C60_reached",
    "CfnLint.C60_exact_partial",
    "CfnLint.C60_conditional_violated",
    "CfnLint.C60_unreachable_violated",
    "CfnLint.C60_text_violated",
    "CfnLint.C60_nested_partial",
    "CfnLint.C60_null",
    "CfnLint.C60_match",
    "CfnLint.C60_custom_partial",
    "CfnLint.C60_custom_type_violated"
   ],
   "note": "Exact for branches without conditional properties, and sound where no condition is asked twice. Violated: a property removed by a condition counts as present, unreachable branches are reported, a text branch is searched for the name as a substring, and custom resources with a non-text Type raise."
  },
  {
   "property": "C61",
   "status": "partial",
   "theorems": [
    "CfnLint.C61_at_least_one_sound",
    "CfnLint.C61_at_least_one_complete_partial",
    "CfnLint.C61_only_one_sound_partial",
    "CfnLint.C61_only_one_complete_partial",
    "CfnLint.C61_empty_violated",
    "CfnLint.C61_only_one_undefined_violated"
   ],
   "note": "E2522 sound for all objects; both complete unless the object is left empty, under the restrictions of C22. E2523 sound where the scenario decides the conditions. Violated: E2522 skips scenarios in which the object becomes empty; E2523 reports properties under an undefined condition."
  },
  {
   "property": "C62",
   "status": "partial",
   "theorems": [
    "CfnLint.C62_exclusive_sound_partial",
    "CfnLint.C62_exclusive_complete_partial",
    "CfnLint.C62_inclusive_sound_partial",
    "CfnLint.C62_inclusive_complete_partial",
    "CfnLint.C62_root_if_violated",
    "CfnLint.C62_root_if_unsound_violated",
    "CfnLint.C62_text_branch_violated"
   ],
   "note": "Exact for objects (under the restrictions of C22 for completeness). Violated for properties given by an Fn::If: the conditions inside the branches are not resolved, and a text branch raises."
  },
  {
   "property": "C63",
   "status": "partial",
   "theorems": [
    "CfnLint.C63_complete_partial",
    "CfnLint.C63_places",
    "CfnLint.C63_sound_partial",
    "CfnLint.C63_violated",
    "CfnLint.C63_hashable",
    "CfnLint.C63_crash_violated"
   ],
   "note": "Complete for Ref and Fn::GetAtt under the restrictions of C22 and C31, sound under those of C23. Violated for Fn::Sub, whose variables are not checked; a Ref to Fn::If raises."
  },
  {
   "property": "C64",
   "status": "partial",
   "theorems": [
    "CfnLint.C64_exact",
    "CfnLint.C64_missing_partial",
    "CfnLint.C64_real_partial",
    "CfnLint.C64_literals_violated"
   ],
   "note": "C64_statement is refuted by C64_literals_violated: a condition that compares two equal texts is always true, yet is taken to be false somewhere."
  },
  {
   "property": "C65",
   "status": "partial",
   "theorems": [
    "CfnLint.C65_exact_partial",
    "CfnLint.C65_sound_violated",
    "CfnLint.C65_complete_violated"
   ],
   "note": "Exact, and free of exceptions, if every Fn::GetAtt has a list. Violated in both directions for Fn::GetAtt with a text, of which the rule takes the first character."
  },
  {
   "property": "C66",
   "status": "partial",
   "theorems": [
    "CfnLint.C66_lookup_partial",
    "CfnLint.C66_module_violated",
    "CfnLint.C66_prefix_violated"
   ],
   "note": "Proved for names that do not merely begin with a declared name and that no module name nearly as long begins; otherwise the longer key of the module wins, or a shorter declared name is found (both shown)."
  },
  {
   "property": "C67",
   "status": "partial",
   "theorems": [
    "CfnLint.C67_conditions",
    "CfnLint.C67_lists",
    "CfnLint.C67_equals_partial",
    "CfnLint.C67_sound_partial",
    "CfnLint.C67_complete_partial",
    "CfnLint.C67_number_violated",
    "CfnLint.C67_name_violated",
    "CfnLint.C67_operand_violated",
    "CfnLint.C67_ref_raises"
   ],
   "note": "E8001, E8004, E8005 and E8006 are exact without restriction; E8003 is exact when references are texts the table finds (C66). Silence implies the grammar when arguments of Condition are texts and no logical functions stand inside operands; the grammar implies silence when no condition is named like a logical function. Each restriction is shown necessary. A reference to a list makes E8003 raise."
  },
  {
   "property": "C68",
   "status": "partial",
   "theorems": [
    "CfnLint.C68_truth_partial",
    "CfnLint.C68_circle_violated"
   ],
   "note": "Proved for conditions that do not use each other in a circle, without fractional numbers as operands, under the restrictions of C67. A condition that negates itself is accepted and has no truth value."
  },
  {
   "property": "C69",
   "status": "partial",
   "theorems": [
    "CfnLint.C69_mappings",
    "CfnLint.C69_find_partial",
    "CfnLint.C69_keys_partial",
    "CfnLint.C69_keys_violated",
    "CfnLint.C69_violated",
    "CfnLint.C69_keys_raises"
   ],
   "note": "E7001 exact (C69_mappings). E1011 exact when no call with a non-list argument stands inside a list (C69_find_partial); there it raises, as join meets an int (C69_violated). W1011 exact when no map or first key is empty (C69_keys_partial); with an empty map the missing key is not reported (C69_keys_violated). C69_keys_raises: non-list arguments make W1011 raise or be taken apart letter by letter."
  },
  {
   "property": "C70",
   "status": "partial",
   "theorems": [
    "CfnLint.C70_lookup_partial",
    "CfnLint.C70_empty_map_violated",
    "CfnLint.C70_empty_key_violated"
   ],
   "note": "Proved when no map and no first key is empty (C70_lookup_partial); C70_empty_map_violated and C70_empty_key_violated show that the full statement fails without it."
  },
  {
   "property": "C71",
   "status": "partial",
   "theorems": [
    "CfnLint.C71_exact_partial",
    "CfnLint.C71_module_violated",
    "CfnLint.C71_first_violated",
    "CfnLint.C71_ref_violated",
    "CfnLint.C71_path_violated"
   ],
   "note": "Proved exact when the object of variables only stands beside a text and references in it are texts, with names inside modules reported (C71_exact_partial). C71_module_violated: a resource provided by a module is reported as unknown. C71_first_violated and C71_ref_violated: the rule raises on [non-text, object] and on a Ref that is no text. C71_path_violated: findings about variables have a path that does not exist. The assumptions on the specification (no attribute named *, no dot in the name of a map) and on types (MapAttrs, ClosedTypes) are those of C49; texts are well formed in the sense of C56."
  },
  {
   "property": "C72",
   "status": "partial",
   "theorems": [
    "CfnLint.C72_if_partial",
    "CfnLint.C72_if_raises",
    "CfnLint.C72_if_violated",
    "CfnLint.C72_select_partial",
    "CfnLint.C72_select_raises",
    "CfnLint.C72_select_violated",
    "CfnLint.C72_split_reports",
    "CfnLint.C72_split_partial",
    "CfnLint.C72_split_violated",
    "CfnLint.C72_import",
    "CfnLint.C72_base64",
    "CfnLint.C72_zones_partial",
    "CfnLint.C72_zones_violated",
    "CfnLint.C72_not"
   ],
   "note": "Full for ImportValue, Base64 and Not. Fn::If raises on an empty list (C72_if_raises, C72_if_violated). Fn::Select raises when the index is a list or null (C72_select_raises) and accepts an index object with several keys (C72_select_violated). Fn::Split reports an unsupported function at a path that is not in the template (C72_split_violated; the exact reports are C72_split_reports). Fn::GetAZs says nothing about lists and numbers (C72_zones_violated). Global search results (Globals) are empty."
  },
  {
   "property": "C73",
   "status": "partial",
   "theorems": [
    "CfnLint.C73_exact_partial",
    "CfnLint.C73_raises",
    "CfnLint.C73_parts_violated",
    "CfnLint.C73_module_violated"
   ],
   "note": "Partial: references are texts, attributes are named in two parts (R.A or [R, A]) and not inside modules; sections are objects; no type merely begins like a nested stack or custom resource. Violations: an attribute in three parts is not found (C73_parts_violated), attributes of resources inside modules are not known (C73_module_violated), references to lists or objects raise (C73_raises)."
  },
  {
   "property": "C74",
   "status": "partial",
   "theorems": [
    "CfnLint.C74_cidr_partial",
    "CfnLint.C74_cidr_break",
    "CfnLint.C74_cidr_violated",
    "CfnLint.C74_ipv4_exact",
    "CfnLint.C74_ipv4_accepts",
    "CfnLint.C74_ipv4_violated",
    "CfnLint.C74_alphanumeric",
    "CfnLint.C74_domain",
    "CfnLint.C74_txt",
    "CfnLint.C74_validations"
   ],
   "note": "Regular expressions are modelled as a syntax with a matcher (proved to agree with their language, mem_rest). Exact for every text: REGEX_IPV4 (C74_ipv4_exact, which shows that leading zeros are accepted), REGEX_ALPHANUMERIC, REGEX_DOMAINNAME, REGEX_TXT, REGEX_CNAME_VALIDATIONS; each also accepts a line break at the end because of $. C74_cidr_partial: exact for texts not ending in a line break; C74_cidr_violated and C74_cidr_break give the rest."
  },
  {
   "property": "C75",
   "status": "partial",
   "theorems": [
    "CfnLint.C75_reports",
    "CfnLint.C75_exact_partial",
    "CfnLint.C75_two_reported",
    "CfnLint.C75_violated",
    "CfnLint.C75_raises",
    "CfnLint.C75_mask_violated",
    "CfnLint.C75_odd_accepted"
   ],
   "note": "Partial. C75_reports: exact for templates whose calls have three parts (or a wrong number), with blocks not ending in a line break, objects with one key, no Booleans and integer bounds, the mask being compared with 256; C75_exact_partial: with 128 where no bound is from 129 to 256. Disagreements: every call without a mask is reported (C75_two_reported, C75_violated), a mask bound of 200 passes (C75_mask_violated), a bound written as a text raises TypeError (C75_raises). Comparison of floats is a parameter."
  },
  {
   "property": "C76",
   "status": "partial",
   "theorems": [
    "CfnLint.C76_exact_partial",
    "CfnLint.C76_places_partial",
    "CfnLint.C76_index_violated",
    "CfnLint.C76_branch_violated",
    "CfnLint.C76_violated"
   ],
   "note": "Partial. C76_exact_partial and C76_places_partial: for resources with properties and walks without a condition in place of an object, without lists in lists, and whose list elements do not have a single key other than Fn::If (PlainWalk). Disagreements: an element with a single key is replaced by the value of that key and its path lacks the index (C76_index_violated); what is behind a condition in place of an object is not found (C76_branch_violated, C76_violated)."
  },
  {
   "property": "C77",
   "status": "partial",
   "theorems": [
    "CfnLint.C77_caa",
    "CfnLint.C77_mx_partial",
    "CfnLint.C77_mx_raises",
    "CfnLint.C77_mx_violated",
    "CfnLint.C77_record_partial",
    "CfnLint.C77_record_raises",
    "CfnLint.C77_recordset_partial",
    "CfnLint.C77_rule_partial"
   ],
   "note": "C77_caa, C77_mx_partial and C77_record_partial state the texts accepted for every type; C77_recordset_partial and C77_rule_partial lift this to record sets and templates. Full statement fails: an MX record with a good priority and a bad name stops the linter with UnboundLocalError (C77_mx_raises, C77_mx_violated), and so do CNAME and TXT records that are no texts (C77_record_raises). Missing: record sets under conditions, REGEX_IPV6 (a parameter), non-ASCII digits."
  },
  {
   "property": "C78",
   "status": "partial",
   "theorems": [
    "CfnLint.C78_prim",
    "CfnLint.C78_exact_partial",
    "CfnLint.C78_rule_partial",
    "CfnLint.C78_nested_place",
    "CfnLint.C78_map_branch",
    "CfnLint.C78_att_raises",
    "CfnLint.C78_objects_accepted",
    "CfnLint.C78_noValue_reported",
    "CfnLint.C78_branch_scalar",
    "CfnLint.C78_type_raises",
    "CfnLint.C78_violated"
   ],
   "note": "Exact for declarations that name declared types, under PlainProps: branches in place of an object are objects, conditions in place of lists of objects are not nested and have no branch taken from a mapping or a CustomResource, attributes are of existing typed resources, objects in place of lists of primitive values call a function other than Ref to AWS::NoValue. Outside of these the rule is wrong: a nested condition loses a key of the path (C78_nested_place), a mapping is accepted directly but reported in a branch (C78_map_branch), scalars in branches are not reported (C78_branch_scalar), any object without Ref is accepted for a list of primitive values (C78_objects_accepted), AWS::NoValue is reported there (C78_noValue_reported), an attribute of a missing resource raises AttributeError (C78_att_raises), and so does a type that is no text (C78_type_raises). Messages are not modelled; the specification is a parameter."
  },
  {
   "property": "C79",
   "status": "partial",
   "theorems": [
    "CfnLint.C79_reports_partial",
    "CfnLint.C79_exact_partial",
    "CfnLint.C79_place",
    "CfnLint.C79_raises",
    "CfnLint.C79_violated",
    "CfnLint.C79_globals_twice"
   ],
   "note": "Exact for templates without Globals whose state machines stand in objects only and have all variables substituted. In general the place of a finding in DefinitionString is the same path with DefinitionSubstitutions, because the list is changed in place (C79_place, C79_violated); what is in Globals is reported a second time with a path that lacks the key Globals (C79_globals_twice); a DefinitionString below a list ends the rule with an AttributeError (C79_raises). The option custom_excludes is a parameter."
  },
  {
   "property": "C80",
   "status": "partial",
   "theorems": [
    "CfnLint.C80_value_partial",
    "CfnLint.C80_reports_partial",
    "CfnLint.C80_violated",
    "CfnLint.C80_truth_accepted",
    "CfnLint.C80_fraction_accepted",
    "CfnLint.C80_long_fraction",
    "CfnLint.C80_condition_silent",
    "CfnLint.C80_no_map"
   ],
   "note": "Partial: a truth value is accepted where a number is declared (a bool is an int in Python), a fraction where a whole number may be read, and nothing is checked if the properties as a whole depend on a condition; outside of these the findings are exact. Which texts float() takes is a parameter."
  },
  {
   "property": "C81",
   "status": "partial",
   "theorems": [
    "CfnLint.C81_allowed",
    "CfnLint.C81_pattern",
    "CfnLint.C81_length_partial",
    "CfnLint.C81_number_value",
    "CfnLint.C81_number_partial",
    "CfnLint.C81_condition_silent",
    "CfnLint.C81_zero_unchecked",
    "CfnLint.C81_violated"
   ],
   "note": "E3030 and E3031 are exact. E3033 and E3034 look values up in the properties and not in the branch, so they find nothing in properties that depend on a condition as a whole; E3033 checks nothing if a bound is 0, as for descriptions of security groups. Outside of these they are exact. The text of a list or object, re.match, float() of a text and the order of numbers are parameters."
  },
  {
   "property": "C82",
   "status": "partial",
   "theorems": [
    "CfnLint.C82_sound_partial",
    "CfnLint.C82_complete_partial",
    "CfnLint.C82_violated",
    "CfnLint.C82_gap_with_condition"
   ],
   "note": "Proved: a report is sound for all truth values agreeing with its scenario and each deployment with a bad size is reported. Fails (C82_violated): an object without conditions is not projected, so AWS::NoValue elements are counted; hence the hypothesis NoGaps. Restrictions of C22 on the conditions."
  },
  {
   "property": "C83",
   "status": "partial",
   "theorems": [
    "CfnLint.C83_forbidden_sound",
    "CfnLint.C83_allowed_sound",
    "CfnLint.C83_forbidden_lists",
    "CfnLint.C83_allowed_lists",
    "CfnLint.C83_branches_partial",
    "CfnLint.C83_novalue_reported",
    "CfnLint.C83_condition_missed",
    "CfnLint.C83_violated",
    "CfnLint.C83_key_order"
   ],
   "note": "Proved: direct lists exactly; lists in the branches of Fn::If exactly per deployment for elements that are the same under all truth values. Fails (C83_violated): elements given by Fn::If are compared unresolved, elements that are AWS::NoValue count as equal. sha1 is taken to have no collisions."
  },
  {
   "property": "C84",
   "status": "partial",
   "theorems": [
    "CfnLint.C84_kinds",
    "CfnLint.C84_policies_partial",
    "CfnLint.C84_violated",
    "CfnLint.C84_both",
    "CfnLint.C84_stateful",
    "CfnLint.C84_explicit"
   ],
   "note": "Full statement fails: an empty policy (\"\", 0, {}, []) is skipped by the truth test and is not reported (C84_violated). Proved for policies that are not empty; kinds, W3011 and I3011 are proved in full."
  },
  {
   "property": "C85",
   "status": "partial",
   "theorems": [
    "CfnLint.C85_exact",
    "CfnLint.C85_reports",
    "CfnLint.C85_sound",
    "CfnLint.C85_complete_partial",
    "CfnLint.C85_list_missed",
    "CfnLint.C85_violated"
   ],
   "note": "Full statement fails: a secret in the text of an Fn::Sub that comes with an object of variables is not reported (C85_list_missed, C85_violated). C85_exact says exactly what is reported (also through Globals); C85_sound: no false reports; C85_complete_partial: complete when metadata have no Fn::Sub lists."
  },
  {
   "property": "C86",
   "status": "partial",
   "theorems": [
    "CfnLint.C86_exact",
    "CfnLint.C86_plain_partial",
    "CfnLint.C86_text_missed",
    "CfnLint.C86_zero_missed",
    "CfnLint.C86_list_reported",
    "CfnLint.C86_number_reported",
    "CfnLint.C86_violated",
    "CfnLint.C86_truth_values"
   ],
   "note": "Full statement fails in four ways, each with a kernel-checked witness: numbers written as text are not compared (C86_text_missed), MinValue 0 is ignored (C86_zero_missed), a list of allowed elements is reported (C86_list_reported), a number whose allowed values are written as texts is reported (C86_number_reported). C86_exact: exactly what is reported, for every template of the intended shape, patterns included (re.match is a parameter). C86_plain_partial: the full claim for parameters written the way the rule reads them."
  },
  {
   "property": "C87",
   "status": "partial",
   "theorems": [
    "CfnLint.C87_exact",
    "CfnLint.C87_sound_partial",
    "CfnLint.C87_unconditional",
    "CfnLint.C87_complete_partial",
    "CfnLint.C87_conditions_missed",
    "CfnLint.C87_branches_reported",
    "CfnLint.C87_violated",
    "CfnLint.C87_absent_reported",
    "CfnLint.C87_text_attribute"
   ],
   "note": "The statement fails: two associations under different conditions that may both hold are not reported (C87_conditions_missed), and opposite branches of one condition are reported though they never meet (C87_branches_reported). Proved: exactly what is reported (C87_exact), soundness without Fn::If, the statement where at most one condition is in use, and that every association of an unconditionally associated subnet is reported."
  },
  {
   "property": "C88",
   "status": "partial",
   "theorems": [
    "CfnLint.C88_exact",
    "CfnLint.C88_sound",
    "CfnLint.C88_complete_partial",
    "CfnLint.C88_unit_missed",
    "CfnLint.C88_tail_missed",
    "CfnLint.C88_violated",
    "CfnLint.C88_rule",
    "CfnLint.C88_number_raises"
   ],
   "note": "The statement fails: units are not looked at (C88_unit_missed), nor is what follows the first closing parenthesis (C88_tail_missed). Proved: exactly which message each text gets, that no schedule expression is reported, and the findings for a whole property with Fn::If. A value that is no text stops the rule (C88_number_raises)."
  },
  {
   "property": "C89",
   "status": "partial",
   "theorems": [
    "CfnLint.C89_exact",
    "CfnLint.C89_inputs",
    "CfnLint.C89_sound_partial",
    "CfnLint.C89_exact_partial",
    "CfnLint.C89_order_reported",
    "CfnLint.C89_order_missed",
    "CfnLint.C89_violated",
    "CfnLint.C89_version_missed",
    "CfnLint.C89_no_stages_raises",
    "CfnLint.C89_no_actions_raises",
    "CfnLint.C89_list_raises",
    "CfnLint.C89_scalars_pass",
    "CfnLint.C89_branches_reported",
    "CfnLint.C89_untyped_lost",
    "CfnLint.C89_stops"
   ],
   "note": "C89_exact gives all findings for pipelines without conditions; C89_inputs states the finding on inputs. C89_statement (with RunOrder) fails both ways (C89_violated, C89_order_reported, C89_order_missed); C89_exact_partial and C89_sound_partial hold if actions are listed in running order. C89_no_stages_raises, C89_no_actions_raises, C89_branches_reported, C89_untyped_lost, C89_stops and C89_version_missed are further faults. Missing: pipelines whose stages or actions are chosen by conditions."
  },
  {
   "property": "C90",
   "status": "partial",
   "theorems": [
    "CfnLint.C90_table",
    "CfnLint.C90_idempotent_partial",
    "CfnLint.C90_rest_dropped",
    "CfnLint.C90_violated",
    "CfnLint.C90_raises_iff",
    "CfnLint.C90_crash_violated",
    "CfnLint.C90_rules"
   ],
   "note": "C90_table, C90_rules, C90_rest_dropped and C90_raises_iff hold for all inputs. C90_statement (idempotence) fails without the heading (C90_violated): the text then grows with each run; C90_idempotent_partial holds with it. C90_crash_statement fails (C90_crash_violated): the file is opened for writing before the sources are looked up, so a rule that git grep does not find leaves a cut file."
  },
  {
   "property": "C91",
   "status": "partial",
   "theorems": [
    "CfnLint.C91_reported",
    "CfnLint.C91_complete",
    "CfnLint.C91_plain_partial",
    "CfnLint.C91_deployed",
    "CfnLint.C91_violated",
    "CfnLint.C91_nested_reported",
    "CfnLint.C91_repeated",
    "CfnLint.C91_dotted_name"
   ],
   "note": "Proved: every finding is for more than five targets in one branch of the outermost condition (C91_reported), and all such are reported (C91_complete); exact for lists without conditions (C91_plain_partial); every list of more than five under some truth values is reported (C91_deployed). The converse fails: four targets and one of two are reported (C91_violated), branches of nested conditions are added (C91_nested_reported). Findings are repeated for each later rule (C91_repeated); names with a full stop are mixed up (C91_dotted_name)."
  },
  {
   "property": "C92",
   "status": "partial",
   "theorems": [
    "CfnLint.C92_document_exact",
    "CfnLint.C92_document_ok_iff",
    "CfnLint.C92_exact",
    "CfnLint.C92_by_type",
    "CfnLint.C92_places_partial",
    "CfnLint.C92_violated",
    "CfnLint.C92_lists_raise",
    "CfnLint.C92_policy_missed",
    "CfnLint.C92_effect_missed",
    "CfnLint.C92_version_reported"
   ],
   "note": "Proved: the findings are exactly the faults (C92_exact, for documents C92_document_exact), with the path that is reported made explicit; faults other than unknown keys are reported at their paths (C92_places_partial). A document is checked without an exception exactly if its statements, where given as an object, are objects in all branches (C92_document_ok_iff). The statement fails: unknown keys are reported at paths that do not exist (C92_violated); lists of statements in branches raise (C92_lists_raise). Policies that depend on a condition are not checked (C92_policy_missed), an effect that is removed under a condition is not reported (C92_effect_missed), a version given by a parameter is (C92_version_reported). Dates as versions are not modelled."
  },
  {
   "property": "C93",
   "status": "partial",
   "theorems": [
    "CfnLint.C93_triggered",
    "CfnLint.C93_required_sound",
    "CfnLint.C93_unwanted_sound_partial",
    "CfnLint.C93_unwanted_complete",
    "CfnLint.C93_required_complete_partial",
    "CfnLint.C93_value",
    "CfnLint.C93_unknown_raises",
    "CfnLint.C93_reference",
    "CfnLint.C93_short_raises",
    "CfnLint.C93_choice_missed",
    "CfnLint.C93_required_violated",
    "CfnLint.C93_unwanted_violated"
   ],
   "note": "Sound for E3017 and complete for E3018; the other two directions fail only for a property written as AWS::NoValue without conditions (violated, with the exact partial). An attribute of an unknown resource raises, and properties chosen by Fn::If are not checked at all (both proved)."
  },
  {
   "property": "C94",
   "status": "proved",
   "theorems": [
    "CfnLint.C94_not_asked",
    "CfnLint.C94_raises_iff",
    "CfnLint.C94_translated",
    "CfnLint.C94_findings",
    "CfnLint.C94_silent_iff",
    "CfnLint.C94_failure_reported"
   ],
   "note": "Raises exactly if the transformation is asked for and the list of regions is empty (C94_raises_iff). C94_failure_reported assumes that the translator names at least one cause when it calls a document invalid; without a cause the untranslated template goes on silently (C94_silent_iff)."
  },
  {
   "property": "C95",
   "status": "partial",
   "theorems": [
    "CfnLint.C95_exact",
    "CfnLint.C95_silent_iff",
    "CfnLint.C95_pipeline",
    "CfnLint.C95_scenarios",
    "CfnLint.C95_place_partial",
    "CfnLint.C95_place_violated",
    "CfnLint.C95_dropped",
    "CfnLint.C95_dropped_odd",
    "CfnLint.C95_names_violated",
    "CfnLint.C95_raises"
   ],
   "note": "Exact for stages with text names and actions with text categories. Violated: the index of a finding counts the stages left in the scenario, so it can name no place of the template; an action without ActionTypeId in the first stage drops the other checks, so repeated names are missed. A category of the first stage given by Ref raises TypeError."
  },
  {
   "property": "C96",
   "status": "partial",
   "theorems": [
    "CfnLint.C96_set_partial",
    "CfnLint.C96_message",
    "CfnLint.C96_sound_partial",
    "CfnLint.C96_complete_partial",
    "CfnLint.C96_violated",
    "CfnLint.C96_missed",
    "CfnLint.C96_choice_raises",
    "CfnLint.C96_silent",
    "CfnLint.C96_unnamed"
   ],
   "note": "Sound and complete when the key schemas of indexes do not depend on conditions. Violated otherwise: the keys of both branches are taken together, which gives false findings and hides true ones. A key name chosen between texts raises TypeError; a definition whose name is not a text silences the rule."
  },
  {
   "property": "C97",
   "status": "partial",
   "theorems": [
    "CfnLint.C97_erased",
    "CfnLint.C97_marks",
    "CfnLint.C97_marks_any",
    "CfnLint.C97_decodes",
    "CfnLint.C97_keys",
    "CfnLint.C97_one_line",
    "CfnLint.C97_objects",
    "CfnLint.C97_lists",
    "CfnLint.C97_template",
    "CfnLint.C97_nodes",
    "CfnLint.C97_error_place",
    "CfnLint.C97_error_shows",
    "CfnLint.C97_reported",
    "CfnLint.C97_error_width",
    "CfnLint.C97_repeat_partial",
    "CfnLint.C97_violated",
    "CfnLint.C97_repeat_violated"
   ],
   "note": "C97_erased: without marks the decoder is that of C34/C35/C55. C97_marks, C97_marks_any, C97_decodes, C97_keys, C97_objects, C97_lists, C97_one_line: the exact place of every mark. C97_statement (columns counted from 0 like those of YAML marks) is violated: columns count from 1, so findings in JSON files stand one column to the right (C97_violated; C97_keys gives the exact offset). C97_error_place, C97_reported: errors. C97_repeat_statement (the error about a duplicate or null member stands at that member) is violated: it stands at the last member of the object (C97_repeat_violated, C97_repeat_partial)."
  },
  {
   "property": "C98",
   "status": "partial",
   "theorems": [
    "CfnLint.C98_accepted",
    "CfnLint.C98_error",
    "CfnLint.C98_project",
    "CfnLint.C98_custom",
    "CfnLint.C98_both",
    "CfnLint.C98_values",
    "CfnLint.C98_loaded",
    "CfnLint.C98_refused",
    "CfnLint.C98_only",
    "CfnLint.C98_custom_only",
    "CfnLint.C98_typed",
    "CfnLint.C98_settable_violated",
    "CfnLint.C98_settable_partial",
    "CfnLint.C98_ignored",
    "CfnLint.C98_named_violated",
    "CfnLint.C98_same"
   ],
   "note": "Violated in full: include_experimental, ignore_bad_template and format are looked for in the configuration file but schema.json refuses any file that names them (C98_settable_violated, C98_ignored); a file named with --config-file that does not exist is silently taken as empty (C98_named_violated). What cfn_yaml.load makes of a file is an input; jsonschema is modelled for this one schema."
  },
  {
   "property": "C99",
   "status": "partial",
   "theorems": [
    "CfnLint.C99_pieces",
    "CfnLint.C99_value",
    "CfnLint.C99_absent",
    "CfnLint.C99_grouping",
    "CfnLint.C99_rules",
    "CfnLint.C99_comma_violated",
    "CfnLint.C99_comma_partial",
    "CfnLint.C99_ignore_comma",
    "CfnLint.C99_again_violated",
    "CfnLint.C99_again_partial",
    "CfnLint.C99_options"
   ],
   "note": "Violated in full: an empty piece (a stray comma in -c or -m) is a prefix of every rule id, so -c I3042, includes every rule (C99_comma_violated); a parser used twice accumulates, since the default list is extended in place (C99_again_violated), though the program makes a new parser each time. argparse itself is not modelled."
  },
  {
   "property": "C100",
   "status": "partial",
   "theorems": [
    "CfnLint.C100_sound",
    "CfnLint.C100_complete_partial",
    "CfnLint.C100_in_zone_partial",
    "CfnLint.C100_empty_raises",
    "CfnLint.C100_boundary_violated",
    "CfnLint.C100_root_violated"
   ],
   "note": "Proved: findings are true of the texts of every agreeing deployment; a zone without a dot and a name that does not end with the zone's characters are reported in their deployment; names in a zone other than the root are not reported. Violated: badexample.com passes in zone example.com. (no dot boundary), all names are reported in the root zone, an empty text raises IndexError. Assumes the object is not itself an Fn::If and its Fn::If are proper (PlainObject)."
  },
  {
   "property": "C101",
   "status": "partial",
   "theorems": [
    "CfnLint.C101_text",
    "CfnLint.C101_reports_partial",
    "CfnLint.C101_lines_violated",
    "CfnLint.C101_map_violated",
    "CfnLint.C101_join_violated",
    "CfnLint.C101_sub_raises"
   ],
   "note": "Proved: the texts recognised are the lines with a reference; the findings are exactly those at values, map entries and texts of Fn::Sub. Violated: texts of several lines, Fn::Sub in an entry of a map and parts of Fn::Join are not looked at; Fn::Sub with an empty list raises. Assumes no null values and no empty Fn::Sub list."
  },
  {
   "property": "C102",
   "status": "partial",
   "theorems": [
    "CfnLint.C102_table",
    "CfnLint.C102_trailing",
    "CfnLint.C102_leading",
    "CfnLint.C102_action_exact",
    "CfnLint.C102_action_sound",
    "CfnLint.C102_exact_partial",
    "CfnLint.C102_sound_partial",
    "CfnLint.C102_not_json",
    "CfnLint.C102_violated",
    "CfnLint.C102_wildcards_violated",
    "CfnLint.C102_notaction_missed",
    "CfnLint.C102_condition_missed",
    "CfnLint.C102_raises"
   ],
   "note": "Proved: the table has all services and all their actions (C102_table); an action without wildcards is reported exactly if it does not exist (C102_action_exact, C102_exact_partial for resources); with stars at an end only, what is reported does not exist (C102_action_sound, C102_sound_partial); what is accepted with a star at one end is characterised (C102_trailing, C102_leading). The full statement fails: a text from the middle of an action passes (C102_violated), stars in the middle and question marks are reported (C102_wildcards_violated), lists under NotAction and statements under Fn::If are not looked at (C102_notaction_missed, C102_condition_missed), actions without a colon and functions raise (C102_raises)."
  },
  {
   "property": "C103",
   "status": "partial",
   "theorems": [
    "CfnLint.C103_whole",
    "CfnLint.C103_exact_partial",
    "CfnLint.C103_module_reported",
    "CfnLint.C103_violated",
    "CfnLint.C103_ref_attribute_raises",
    "CfnLint.C103_stack_raises",
    "CfnLint.C103_section_kinds"
   ],
   "note": "Exact where a resource whose attribute is used is in the template and names are texts. Resources made by modules are reported whatever they are (C103_violated); a Ref as attribute name and a stack attribute without name stop the program."
  },
  {
   "property": "C104",
   "status": "partial",
   "theorems": [
    "CfnLint.C104_listener",
    "CfnLint.C104_v2",
    "CfnLint.C104_v1",
    "CfnLint.C104_rule",
    "CfnLint.C104_listener_missed",
    "CfnLint.C104_certificate_violated",
    "CfnLint.C104_scenarios",
    "CfnLint.C104_exact",
    "CfnLint.C104_place_partial",
    "CfnLint.C104_violated"
   ],
   "note": "Faults are exact. Attribute findings stand at SecurityGroups where those are a fault as well (C104_violated); a certificate that a condition takes away counts as one (C104_certificate_violated); listeners under a condition are not looked at (C104_listener_missed). Case is that of ASCII letters."
  },
  {
   "property": "C105",
   "status": "partial",
   "theorems": [
    "CfnLint.C105_syntax",
    "CfnLint.C105_exact_partial",
    "CfnLint.C105_repeated",
    "CfnLint.C105_runs",
    "CfnLint.C105_report",
    "CfnLint.C105_loaded",
    "CfnLint.C105_home_raises",
    "CfnLint.C105_no_directory",
    "CfnLint.C105_missed",
    "CfnLint.C105_violated",
    "CfnLint.C105_unnamed_raises"
   ],
   "note": "Full statement (a resource without functions and references is checked) fails: a property whose name contains Ref or Condition takes the resource out of the check (C105_missed, C105_violated). C105_exact_partial says exactly what is checked. A directory such as ~/schemas is found after expansion and then listed without, so the program ends with an error (C105_home_raises). The validator, the text of a value and the file system are parameters of the model."
  },
  {
   "property": "C106",
   "status": "partial",
   "theorems": [
    "CfnLint.C106_text",
    "CfnLint.C106_lines",
    "CfnLint.C106_between",
    "CfnLint.C106_measured",
    "CfnLint.C106_not_longer",
    "CfnLint.C106_no_functions",
    "CfnLint.C106_scenarios",
    "CfnLint.C106_exact_partial",
    "CfnLint.C106_sound",
    "CfnLint.C106_plain",
    "CfnLint.C106_violated",
    "CfnLint.C106_no_limit_raises",
    "CfnLint.C106_missing_raises",
    "CfnLint.C106_empty_sub_raises"
   ],
   "note": "Full statement (text outside of placeholders is counted) fails: the pattern is greedy, so all text between the first and the last placeholder of a line is left out (C106_between, C106_violated). C106_exact_partial describes what is measured. A value type without JsonMax, or Fn::Sub with an empty list, ends the rule with an error (C106_no_limit_raises, C106_empty_sub_raises). The texts of floats are those of repr; dates are not modelled."
  },
  {
   "property": "C107",
   "status": "proved",
   "theorems": [
    "CfnLint.C107_entries",
    "CfnLint.C107_names",
    "CfnLint.C107_unique",
    "CfnLint.C107_null_raises",
    "CfnLint.C107_unique_list",
    "CfnLint.C107_groups_raise",
    "CfnLint.C107_text_group"
   ],
   "note": "Proved for metadata of the expected form. Outside of it: an empty Parameters section ends E3007 with a TypeError (C107_null_raises), empty ParameterGroups end E4001 (C107_groups_raise), and a group that is a text has a finding for each character (C107_text_group)."
  },
  {
   "property": "C108",
   "status": "partial",
   "theorems": [
    "CfnLint.C108_state",
    "CfnLint.C108_definition",
    "CfnLint.C108_exact_partial",
    "CfnLint.C108_map_passes",
    "CfnLint.C108_parallel_parameters",
    "CfnLint.C108_fail_next",
    "CfnLint.C108_violated",
    "CfnLint.C108_missing_sound",
    "CfnLint.C108_not_inside",
    "CfnLint.C108_list_raises",
    "CfnLint.C108_null_states_raise",
    "CfnLint.C108_first",
    "CfnLint.C108_empty_sub_raises",
    "CfnLint.C108_number_raises"
   ],
   "note": "Exact for the tables of the rule (C108_exact_partial, C108_definition, C108_state). The full statement asks for the tables of the language and fails (C108_violated): a Map without Iterator passes, a Fail with Next passes, Parameters of Parallel are reported. States in branches and iterators are not looked at (C108_not_inside). Documents that are no objects make the rule raise (C108_list_raises)."
  },
  {
   "property": "C109",
   "status": "proved",
   "theorems": [
    "CfnLint.C109_over",
    "CfnLint.C109_aged",
    "CfnLint.C109_one_of_both",
    "CfnLint.C109_later",
    "CfnLint.C109_object_raises",
    "CfnLint.C109_null_parameter_raises"
   ],
   "note": "The dates are numbers, already read; the table is a parameter with distinct names, none empty."
  },
  {
   "property": "C110",
   "status": "partial",
   "theorems": [
    "CfnLint.C110_zones",
    "CfnLint.C110_refs_partial",
    "CfnLint.C110_violated",
    "CfnLint.C110_null_raises",
    "CfnLint.C110_path_only"
   ],
   "note": "The zones are exact. For references E3050 is exact for what it tests (C110_refs_partial: a path is given and not written '/'); the full statement on paths under conditions fails (C110_violated). The exception for Fn::GetAZs compares the last key with a list and never applies (C110_path_only)."
  },
  {
   "property": "C111",
   "status": "partial",
   "theorems": [
    "CfnLint.C111_document",
    "CfnLint.C111_policies_partial",
    "CfnLint.C111_violated",
    "CfnLint.C111_null_raises",
    "CfnLint.C111_other_types"
   ],
   "note": "Exact for single documents (C111_document) and for lists of policies (C111_policies_partial). Policies under a condition are not looked at (C111_violated); null policies make the rule raise. Dates of YAML are not modelled."
  },
  {
   "property": "C112",
   "status": "partial",
   "theorems": [
    "CfnLint.C112_dynamic",
    "CfnLint.C112_ssm",
    "CfnLint.C112_password",
    "CfnLint.C112_image_partial",
    "CfnLint.C112_image_violated",
    "CfnLint.C112_violated",
    "CfnLint.C112_branches"
   ],
   "note": "Exact for passwords (C112_password) and for the two regular expressions (C112_dynamic, C112_ssm). Violations shown: the text false for NoEcho passes (C112_violated), a resource that an image refers to is reported as a parameter (C112_image_violated), passwords inside Fn::If are not looked at (C112_branches). C112_image_partial says what is reported of images."
  },
  {
   "property": "C113",
   "status": "partial",
   "theorems": [
    "CfnLint.C113_domain",
    "CfnLint.C113_aliases",
    "CfnLint.C113_braces_raise",
    "CfnLint.C113_violated",
    "CfnLint.C113_containers",
    "CfnLint.C113_containers_violated",
    "CfnLint.C113_format"
   ],
   "note": "C113_domain and C113_aliases are exact where aliases have no braces. Violations shown: an alias with a name in braces ends the rule with a KeyError (C113_braces_raise); a star may begin any part but the last (C113_violated); the text false for Essential is true (C113_containers_violated)."
  },
  {
   "property": "C114",
   "status": "partial",
   "theorems": [
    "CfnLint.C114_device",
    "CfnLint.C114_devices",
    "CfnLint.C114_name_raises",
    "CfnLint.C114_violated",
    "CfnLint.C114_ingress",
    "CfnLint.C114_ingress_raises",
    "CfnLint.C114_domains"
   ],
   "note": "C114_devices, C114_ingress and C114_domains characterise the findings; C114_name_raises and C114_ingress_raises give the errors; C114_violated: Iops by AWS::NoValue counts as given. The scenarios of E3503 are a parameter (get_object_without_conditions is C45 and later claims)."
  },
  {
   "property": "C115",
   "status": "partial",
   "theorems": [
    "CfnLint.C115_modules_partial",
    "CfnLint.C115_modules_violated",
    "CfnLint.C115_module_raises",
    "CfnLint.C115_serverless",
    "CfnLint.C115_packages",
    "CfnLint.C115_other_types",
    "CfnLint.C115_filters",
    "CfnLint.C115_filters_violated",
    "CfnLint.C115_filter_raises",
    "CfnLint.C115_memory",
    "CfnLint.C115_no_resources"
   ],
   "note": "C115_modules_partial is exact with the code's notion of a module (any text ending with ::MODULE); C115_modules_violated shows that non-modules are found; C115_module_raises and C115_filter_raises give the errors; C115_filters with C115_filters_violated (conditions are not looked at); C115_serverless, C115_packages, C115_other_types, C115_memory."
  },
  {
   "property": "C116",
   "status": "partial",
   "theorems": [
    "CfnLint.C116_ref_partial",
    "CfnLint.C116_ref_violated",
    "CfnLint.C116_join",
    "CfnLint.C116_join_raises",
    "CfnLint.C116_conditions",
    "CfnLint.C116_parameters_partial",
    "CfnLint.C116_parameters_violated",
    "CfnLint.C116_mappings",
    "CfnLint.C116_mappings_raises",
    "CfnLint.C116_sections"
   ],
   "note": "Proved: exact findings of the six rules and the errors. Not true: that only references are reported (C116_ref_violated, C116_parameters_violated)."
  },
  {
   "property": "C117",
   "status": "partial",
   "theorems": [
    "CfnLint.C117_sizes",
    "CfnLint.C117_sizes_raises",
    "CfnLint.C117_clusters_partial",
    "CfnLint.C117_no_settings_raises",
    "CfnLint.C117_reference_raises",
    "CfnLint.C117_clusters_violated",
    "CfnLint.C117_no_scenario_raises",
    "CfnLint.C117_no_scenario_if",
    "CfnLint.C117_no_scenario_plain"
   ],
   "note": "Proved: E3025 exactly (C117_sizes) and the error without Properties (C117_sizes_raises); E3026 exactly where the objects are flat and closed under the scenarios and the path is good (C117_clusters_partial). Not true: that the rule is done with any valid cluster (C117_clusters_statement, C117_clusters_violated): a parameter group without settings (C117_no_settings_raises) or a NumCacheClusters given by a reference (C117_reference_raises) ends it in an error."
  },
  {
   "property": "C118",
   "status": "partial",
   "theorems": [
    "CfnLint.C118_outputs_partial",
    "CfnLint.C118_outputs_raises",
    "CfnLint.C118_name_raises",
    "CfnLint.C118_outputs_violated",
    "CfnLint.C118_required",
    "CfnLint.C118_required_raises",
    "CfnLint.C118_texts",
    "CfnLint.C118_description",
    "CfnLint.C118_imports",
    "CfnLint.C118_values_partial",
    "CfnLint.C118_values_violated",
    "CfnLint.C118_values_raises"
   ],
   "note": "Proved: all six rules exactly. Partial: E6001 ends in an error with an integer as name of an output whose value is to be reported (C118_name_raises, C118_outputs_violated) and with outputs that are no objects; E6003 does not look at the first branch of Fn::If, its second argument (C118_values_violated), and raises for Outputs: {Ref: Value} with a list parameter Value (C118_values_raises)."
  },
  {
   "property": "C119",
   "status": "partial",
   "theorems": [
    "CfnLint.C119_parameters",
    "CfnLint.C119_parameters_raises",
    "CfnLint.C119_types",
    "CfnLint.C119_resources_violated",
    "CfnLint.C119_resources_partial",
    "CfnLint.C119_resources_raises"
   ],
   "note": "E2001 and E2002 exact where parameters are objects and an error otherwise. E3001 exact except that a resource whose name is not a string and whose Type is not a string raises (C119_resources_violated, C119_resources_raises)."
  },
  {
   "property": "C120",
   "status": "partial",
   "theorems": [
    "CfnLint.C120_update",
    "CfnLint.C120_update_partial",
    "CfnLint.C120_update_violated",
    "CfnLint.C120_update_raises"
   ],
   "note": "Exact findings proved (C120_update), but the paths are not always right: unknown properties inside an Fn::If are reported beside it, and boolean policies have their name twice in the path (C120_update_violated). C120_update_partial: right where neither occurs. A choice that is no object raises (C120_update_raises)."
  },
  {
   "property": "C121",
   "status": "proved",
   "theorems": [
    "CfnLint.C121_allowed",
    "CfnLint.C121_pattern",
    "CfnLint.C121_raises",
    "CfnLint.C121_section_kinds"
   ],
   "note": "E is the reading of texts (re.match, str of lists and objects). The rules check the default also where there are allowed values, although their comment says they do not. C121_raises: a parameter that is no object, or allowed values that are a number, make the rules raise."
  },
  {
   "property": "C122",
   "status": "partial",
   "theorems": [
    "CfnLint.C122_names",
    "CfnLint.C122_names_partial",
    "CfnLint.C122_names_violated",
    "CfnLint.C122_raises"
   ],
   "note": "C122_names says exactly what is found. The full statement (a name is found iff it has a character that is no letter and no digit) fails for a line break at the end, which $ accepts: C122_names_violated, C122_names_partial."
  },
  {
   "property": "C123",
   "status": "partial",
   "theorems": [
    "CfnLint.C123_classes",
    "CfnLint.C123_loads_partial",
    "CfnLint.C123_loads_violated",
    "CfnLint.C123_dotted",
    "CfnLint.C123_unreadable_raises",
    "CfnLint.C123_sources",
    "CfnLint.C123_sources_fail",
    "CfnLint.C123_source"
   ],
   "note": "Fails for file names with another dot (C123_loads_violated, C123_dotted): the file is passed over, another file is loaded twice or the run fails. C123_loads_partial excludes these and files beside a package of the same name. What executing a file does is a parameter."
  },
  {
   "property": "C124",
   "status": "partial",
   "theorems": [
    "CfnLint.C124_regions",
    "CfnLint.C124_conflict_raises",
    "CfnLint.C124_again",
    "CfnLint.C124_templates",
    "CfnLint.C124_ends_violated",
    "CfnLint.C124_ends_partial",
    "CfnLint.C124_json_no_exit",
    "CfnLint.C124_shape",
    "CfnLint.C124_formats"
   ],
   "note": "The statement that every unreadable file ends the run is violated: errors of reading other than 2, 13 and 21 are swallowed and the run goes on without the override (C124_ends_violated). JSON of the wrong shape is never reported as malformed; it raises (C124_shape, C124_json_no_exit)."
  },
  {
   "property": "C125",
   "status": "partial",
   "theorems": [
    "CfnLint.C125_load",
    "CfnLint.C125_table",
    "CfnLint.C125_loads_violated",
    "CfnLint.C125_loads_partial",
    "CfnLint.C125_transfer"
   ],
   "note": "The statement that all well formed conditions are loaded is violated: one compared function holding an object with both texts and numbers as keys makes json.dumps raise, the exception is swallowed, and the template is left without any conditions (C125_loads_violated)."
  },
  {
   "property": "C126",
   "status": "proved",
   "theorems": [
    "CfnLint.C126_patch",
    "CfnLint.C126_skipped",
    "CfnLint.C126_untouched",
    "CfnLint.C126_last",
    "CfnLint.C126_files",
    "CfnLint.C126_file_order",
    "CfnLint.C126_botocore",
    "CfnLint.C126_botocore_gone",
    "CfnLint.C126_botocore_ok_iff",
    "CfnLint.C126_process"
   ],
   "note": "jsonpatch is modelled from RFC 6902 for the three operations and the paths (only through objects) that occur in data/ExtendedSpecs. The replacement is stated for documents in which no object has both botocore and AllowedValues."
  },
  {
   "property": "C127",
   "status": "partial",
   "theorems": [
    "CfnLint.C127_run",
    "CfnLint.C127_report_partial",
    "CfnLint.C127_report_setup_violated",
    "CfnLint.C127_report_place_violated",
    "CfnLint.C127_clean_partial",
    "CfnLint.C127_clean_violated",
    "CfnLint.C127_references_partial",
    "CfnLint.C127_no_cycle_partial",
    "CfnLint.C127_objects_partial"
   ],
   "note": "Full report and status statements are violated when setting up some rule raises (run_checks swallows the exception, nothing is reported, status 0) and when one result of a call has the empty path (the whole call is replaced by E0002). Partial theorems assume that rules can be set up; the instances for E1012 and E3004 carry over the restrictions of C33 and C40."
  },
  {
   "property": "C128",
   "status": "partial",
   "theorems": [
    "CfnLint.C128_required_partial",
    "CfnLint.C128_primitives_partial",
    "CfnLint.C128_allowed_partial",
    "CfnLint.C128_patterns_partial",
    "CfnLint.C128_lengths_partial",
    "CfnLint.C128_numbers_partial",
    "CfnLint.C128_region_violated",
    "CfnLint.C128_declared",
    "CfnLint.C128_entry",
    "CfnLint.C128_named",
    "CfnLint.C128_types",
    "CfnLint.C128_followed",
    "CfnLint.C128_resources",
    "CfnLint.C128_typed_partial",
    "CfnLint.C128_listed_partial",
    "CfnLint.C128_matched_partial",
    "CfnLint.C128_sized_partial",
    "CfnLint.C128_bounded_partial"
   ],
   "note": "The full statement for E3003 is refuted (C128_region_violated): the traversal goes by us-east-1, the rules by the first region. The partial theorems hold for objects at places us-east-1 declares and the traversal follows (C44), with the limits of C60, C80 and C81. C128_declared, C128_entry, C128_named, C128_types, C128_followed and C128_resources say that what the rules and the traversal take for declarations is what stands in the JSON of the specification; C128_typed/listed/matched/sized/bounded_partial state the consequences on that JSON. Missing: the same for what only another region declares, which the code does not visit."
  },
  {
   "property": "C129",
   "status": "partial",
   "theorems": [
    "CfnLint.C129_refs_partial",
    "CfnLint.C129_attributes_partial",
    "CfnLint.C129_subs_partial",
    "CfnLint.C129_conditions_partial",
    "CfnLint.C129_dependsOn_partial",
    "CfnLint.C129_deployed_partial",
    "CfnLint.C129_cycles_partial",
    "CfnLint.C129_lookups_partial",
    "CfnLint.C129_truth_partial",
    "CfnLint.C129_prefix_violated"
   ],
   "note": "Full statement C129_statement is false (C129_prefix_violated: with a parameter Env, a reference to Environment passes E1012). C129_refs_partial asks that no declared name is a proper prefix of the reference and that sections and references have their shape; C129_attributes_partial, C129_subs_partial, C129_conditions_partial, C129_cycles_partial, C129_lookups_partial and C129_truth_partial need the shapes of C49, C71, C54, C40, C70 and C68; C129_dependsOn_partial and C129_deployed_partial ask that E3005 did not fail on an attribute of a template node, and the latter a deployment as in C23. The rules' messages are arbitrary; the table of conditions is a parameter."
  },
  {
   "property": "C130",
   "status": "partial",
   "theorems": [
    "CfnLint.C130_resources",
    "CfnLint.C130_parameters_partial",
    "CfnLint.C130_outputs_partial",
    "CfnLint.C130_refs_partial",
    "CfnLint.C130_text_violated"
   ],
   "note": "C130_resources holds in full. A parameter or output that is a text or a list makes E2001/E2002 or E6001/E6005 stop with an attribute error that is swallowed: C130_text_violated has a template with the parameter Env: x that passes with status 0; the partial theorems assume no such entries. C130_refs_partial moreover has the prefix condition of C33."
  },
  {
   "property": "C131",
   "status": "partial",
   "theorems": [
    "CfnLint.C131_satisfiable",
    "CfnLint.C131_groups",
    "CfnLint.C131_at_least_one_partial",
    "CfnLint.C131_only_one_partial",
    "CfnLint.C131_exclusive_partial",
    "CfnLint.C131_inclusive_partial",
    "CfnLint.C131_sizes_partial",
    "CfnLint.C131_repeats_partial",
    "CfnLint.C131_branches_partial",
    "CfnLint.C131_tables_partial",
    "CfnLint.C131_empty_violated"
   ],
   "note": "C131_satisfiable and C131_groups in full. E2522 does not report an object that is left without any property (C131_empty_violated), E2523 alike; E2520 and E2521 only for objects that are not themselves an Fn::If (C62); E3037 for lists under conditions whose elements are not conditional (C83); all under the restrictions of C22 on conditions and C44 on the traversal."
  },
  {
   "property": "C132",
   "status": "partial",
   "theorems": [
    "CfnLint.C132_names",
    "CfnLint.C132_numbers",
    "CfnLint.C132_resources",
    "CfnLint.C132_description",
    "CfnLint.C132_size",
    "CfnLint.C132_values_partial",
    "CfnLint.C132_outputs_partial",
    "CfnLint.C132_attributes_partial",
    "CfnLint.C132_parameters_used_partial",
    "CfnLint.C132_conditions_used_partial",
    "CfnLint.C132_mappings_used_partial",
    "CfnLint.C132_limits_partial",
    "CfnLint.C132_text_violated",
    "CfnLint.C132_shadow_violated"
   ],
   "note": "Names, numbers, resources, description and size in full; values, output descriptions and mapping attributes need entries that are no texts or lists (C132_text_violated); uses need the forms of C53, C57, C58 (C132_shadow_violated)."
  },
  {
   "property": "C133",
   "status": "partial",
   "theorems": [
    "CfnLint.C133_begins",
    "CfnLint.C133_stream",
    "CfnLint.C133_queue",
    "CfnLint.C133_aurora",
    "CfnLint.C133_serverful",
    "CfnLint.C133_unwanted",
    "CfnLint.C133_required_partial",
    "CfnLint.C133_starting_position_partial",
    "CfnLint.C133_queue_start",
    "CfnLint.C133_cluster",
    "CfnLint.C133_instance",
    "CfnLint.C133_throughput",
    "CfnLint.C133_alarm_partial",
    "CfnLint.C133_novalue_violated"
   ],
   "note": "Partial: E3017 takes a required property that is written as AWS::NoValue, with no condition asked, for present (C133_novalue_violated). E3018 and the meaning of the expressions are proved in full."
  },
  {
   "property": "C134",
   "status": "partial",
   "theorems": [
    "CfnLint.C134_policies",
    "CfnLint.C134_both",
    "CfnLint.C134_serverless",
    "CfnLint.C134_conditions",
    "CfnLint.C134_mappings",
    "CfnLint.C134_update_partial",
    "CfnLint.C134_essential_partial",
    "CfnLint.C134_aliases_partial",
    "CfnLint.C134_devices_partial",
    "CfnLint.C134_ingress_partial",
    "CfnLint.C134_filters_partial",
    "CfnLint.C134_listeners_partial",
    "CfnLint.C134_secrets_partial",
    "CfnLint.C134_routes_partial",
    "CfnLint.C134_text_violated"
   ],
   "note": "Policies, transform, conditions and mappings hold without further hypotheses. The full statement (C134_statement) fails: a text among the rules of one security group makes the rule stop with an exception the runner swallows, and faults of the other groups go unseen (C134_text_violated); the partial theorems ask for the form of the resources concerned. No transform is applied in the end-to-end model."
  },
  {
   "property": "C135",
   "status": "partial",
   "theorems": [
    "CfnLint.C135_if",
    "CfnLint.C135_select_partial",
    "CfnLint.C135_split",
    "CfnLint.C135_import",
    "CfnLint.C135_base64",
    "CfnLint.C135_zones_partial",
    "CfnLint.C135_not",
    "CfnLint.C135_cidr_partial",
    "CfnLint.C135_counts_partial",
    "CfnLint.C135_join_partial",
    "CfnLint.C135_needed_partial",
    "CfnLint.C135_unneeded",
    "CfnLint.C135_used",
    "CfnLint.C135_zones_violated",
    "CfnLint.C135_select_violated"
   ],
   "note": "Partial: the full statement fails, since Fn::GetAZs of a list of regions and Fn::Select with a Boolean index pass (C135_zones_violated, C135_select_violated). Full for Fn::If, Fn::Split, Fn::ImportValue, Fn::Base64, Fn::Not and both rules on the variables of Fn::Sub. Partial for Fn::Select (indexes that are Booleans, decimals or objects without exactly one key), Fn::GetAZs (neither text nor object), Fn::Cidr (parameters that are objects with integer bounds; masks are checked against 256), Fn::Join (shape of C73) and E1029 (shape of C79)."
  },
  {
   "property": "C136",
   "status": "partial",
   "theorems": [
    "CfnLint.C136_defaults_partial",
    "CfnLint.C136_parameters",
    "CfnLint.C136_unique",
    "CfnLint.C136_entries_partial",
    "CfnLint.C136_names_partial",
    "CfnLint.C136_values_partial",
    "CfnLint.C136_imports",
    "CfnLint.C136_description",
    "CfnLint.C136_passwords_partial",
    "CfnLint.C136_obsolete_partial",
    "CfnLint.C136_exist_partial",
    "CfnLint.C136_mappings_partial",
    "CfnLint.C136_modules_partial",
    "CfnLint.C136_text_violated"
   ],
   "note": "Full for E2014, E3007, W6001 and E1004. Partial for the rest: the shape hypotheses leave out the templates on which the rule raises a TemplateAttributeError, which the runner swallows. The full statement fails: mappings that are a text make E7002 raise that error, no finding is left and the status is 0 (C136_text_violated)."
  },
  {
   "property": "C137",
   "status": "partial",
   "theorems": [
    "CfnLint.C137_schedule_partial",
    "CfnLint.C137_machines_partial",
    "CfnLint.C137_versions_partial",
    "CfnLint.C137_policy_versions_partial",
    "CfnLint.C137_packages_partial",
    "CfnLint.C137_memory_partial",
    "CfnLint.C137_zones_partial",
    "CfnLint.C137_sub_zones_partial",
    "CfnLint.C137_roles_partial",
    "CfnLint.C137_policies_partial",
    "CfnLint.C137_actions_partial",
    "CfnLint.C137_runtimes_partial",
    "CfnLint.C137_domains_partial",
    "CfnLint.C137_records_partial",
    "CfnLint.C137_tables_partial",
    "CfnLint.C137_clusters_partial",
    "CfnLint.C137_object_violated"
   ],
   "note": "Full statement violated (C137_object_violated): E3027 fails unnoticed on a schedule expression that is an object, and the status is 0. The partial theorems hold for values of the shapes on which the rules do not raise."
  },
  {
   "property": "C138",
   "status": "partial",
   "theorems": [
    "CfnLint.C138_refs_read",
    "CfnLint.C138_refs_said",
    "CfnLint.C138_attributes_read",
    "CfnLint.C138_attributes_said",
    "CfnLint.C138_governed",
    "CfnLint.C138_documents_read",
    "CfnLint.C138_values_partial",
    "CfnLint.C138_patterns_partial",
    "CfnLint.C138_secrets_partial",
    "CfnLint.C138_documents_partial",
    "CfnLint.C138_parameters_partial",
    "CfnLint.C138_resources_partial",
    "CfnLint.C138_attributes_partial",
    "CfnLint.C138_condition_violated"
   ],
   "note": "Fails as stated: W2030 and W2031 say nothing of resources with a condition (C138_condition_violated). The partial theorems exclude conditions there, nulls, texts of several lines for E1027, conditions for E3502 and unresolvable calls for E3008."
  },
  {
   "property": "C139",
   "status": "partial",
   "theorems": [
    "CfnLint.C139_stages_exact",
    "CfnLint.C139_stages_partial",
    "CfnLint.C139_actions_partial",
    "CfnLint.C139_properties_partial",
    "CfnLint.C139_records_partial",
    "CfnLint.C139_databases_partial",
    "CfnLint.C139_images_partial",
    "CfnLint.C139_schemas_partial",
    "CfnLint.C139_inputs_violated"
   ],
   "note": "Partial: each theorem takes over the conditions of the exact theorem on its rule (no conditions in pipelines, no names of modules among images, and so on). The full statement fails: E2541 does not look at the order in which actions run."
  },
  {
   "property": "C140",
   "status": "partial",
   "theorems": [
    "CfnLint.C140_names",
    "CfnLint.C140_numbers",
    "CfnLint.C140_description",
    "CfnLint.C140_size",
    "CfnLint.C140_values_partial",
    "CfnLint.C140_outputs_partial",
    "CfnLint.C140_attributes_partial",
    "CfnLint.C140_stateful",
    "CfnLint.C140_joins",
    "CfnLint.C140_repeats_partial",
    "CfnLint.C140_room_partial",
    "CfnLint.C140_text_violated"
   ],
   "note": "Full statement C140_statement refuted by C140_text_violated: where a parameter is a text, I2012 and E2012 stop without a finding. C140_room_partial: parameters, outputs and mappings are not texts or lists. C140_names, C140_numbers, C140_description, C140_size, C140_stateful and C140_joins are complete."
  },
  {
   "property": "C141",
   "status": "partial",
   "theorems": [
    "CfnLint.C141_same_edges",
    "CfnLint.C141_drawn_partial",
    "CfnLint.C141_file_partial",
    "CfnLint.C141_raised",
    "CfnLint.C141_unchanged_partial",
    "CfnLint.C141_stdin_violated",
    "CfnLint.C141_text_violated"
   ],
   "note": "Full statement C141_statement refuted twice. C141_stdin_violated: a template from the standard input has no name, the TypeError ends python -m cfnlint with status 0 although the template has errors. C141_text_violated: a resource that is a text makes the program fail where it would have reported an error. C141_same_edges is complete; the other theorems need the documented shape, and a file name."
  },
  {
   "property": "C142",
   "status": "proved",
   "theorems": [
    "CfnLint.C142_copy",
    "CfnLint.C142_items",
    "CfnLint.C142_list",
    "CfnLint.C142_get",
    "CfnLint.C142_values",
    "CfnLint.C142_get_values"
   ],
   "note": "Values shared through YAML anchors are treated as separate values."
  },
  {
   "property": "C143",
   "status": "partial",
   "theorems": [
    "CfnLint.C143_text",
    "CfnLint.C143_no_words",
    "CfnLint.C143_content",
    "CfnLint.C143_failed",
    "CfnLint.C143_done",
    "CfnLint.C143_states_partial",
    "CfnLint.C143_torn_violated"
   ],
   "note": "C143_statement fails at one moment: the file is emptied before it is written (C143_torn_violated)."
  },
  {
   "property": "C144",
   "status": "partial",
   "theorems": [
    "CfnLint.C144_replay",
    "CfnLint.C144_call",
    "CfnLint.C144_resources",
    "CfnLint.C144_distinct",
    "CfnLint.C144_branches",
    "CfnLint.C144_targets_partial",
    "CfnLint.C144_calls_violated"
   ],
   "note": "Partial: targets that are calls of functions are not counted by the rule, so the full statement fails (C144_calls_violated); names with full stops and nulls are excluded (C91 shows what happens with names with full stops)."
  },
  {
   "property": "C145",
   "status": "proved",
   "theorems": [
    "CfnLint.C145_silent",
    "CfnLint.C145_exact",
    "CfnLint.C145_sections",
    "CfnLint.C145_base"
   ],
   "note": "Complete. The hypotheses of C145_exact are those of C127 (ids begin with the letters of severities, no directives) and that the configuration can be used; C145_base discharges them for a run with the rule E1001."
  },
  {
   "property": "C146",
   "status": "partial",
   "theorems": [
    "CfnLint.C146_any",
    "CfnLint.C146_isolated_partial",
    "CfnLint.C146_others",
    "CfnLint.C146_same",
    "CfnLint.C146_ends",
    "CfnLint.C146_regions",
    "CfnLint.C146_mkdir_violated"
   ],
   "note": "violated where the directory of the download metadata does not exist at the start: save_metadata looks for the directory and makes it in two steps, so a second process fails with FileExistsError (C146_mkdir_violated); proved where it exists, and in general up to this failure (C146_any)"
  },
  {
   "property": "C147",
   "status": "proved",
   "theorems": [
    "CfnLint.C147_found",
    "CfnLint.C147_status",
    "CfnLint.C147_tells",
    "CfnLint.C147_wellMade"
   ],
   "note": ""
  },
  {
   "property": "C148",
   "status": "proved",
   "theorems": [
    "CfnLint.C148_attempts",
    "CfnLint.C148_newVersion",
    "CfnLint.C148_mended",
    "CfnLint.C148_directory",
    "CfnLint.C148_next"
   ],
   "note": "The results about recovery need answers with tags, equal bodies for equal tags, and updates that ended well or with FileExistsError (C148_mended, C148_next), or a version that is new and metadata that are whole (C148_newVersion); C43 shows that they fail otherwise."
  },
  {
   "property": "C149",
   "status": "proved",
   "theorems": [
    "CfnLint.C149_found",
    "CfnLint.C149_status",
    "CfnLint.C149_tells",
    "CfnLint.C149_sections"
   ],
   "note": "Templates with sections of other shapes are the subject of the theorems on the single rules; the status theorem says nothing about them."
  },
  {
   "property": "C150",
   "status": "proved",
   "theorems": [
    "CfnLint.C150_tells",
    "CfnLint.C150_bounds"
   ],
   "note": "The file size rule E1002 and the rules on values, descriptions of outputs and attributes of mappings are left to C132."
  },
  {
   "property": "C151",
   "status": "proved",
   "theorems": [
    "CfnLint.C151_tells",
    "CfnLint.C151_linked"
   ],
   "note": "networkx.find_cycle and re.match enter by their contracts (FindsCycles, MatchesPrefixes), as in C33 and C40."
  },
  {
   "property": "C152",
   "status": "proved",
   "theorems": [
    "CfnLint.C152_status",
    "CfnLint.C152_number"
   ],
   "note": "Rules are arbitrary behaviours; the three kinds of calls and the decorator are modelled. Assumes ReadyRun (as C145), E0002 in force, no directives, and that a rule does the same whatever its options (see C153_unconfigured for rules with options that nothing configures)."
  },
  {
   "property": "C153",
   "status": "proved",
   "theorems": [
    "CfnLint.C153_unconfigured",
    "CfnLint.C153_status"
   ],
   "note": "Generalises C152 to templates with directives; a directive for E0002 itself is excluded."
  },
  {
   "property": "C154",
   "status": "proved",
   "theorems": [
    "CfnLint.C154_unconfigured",
    "CfnLint.C154_bits",
    "CfnLint.C154_union",
    "CfnLint.C154_order"
   ],
   "note": "Under the assumptions of C153 (SteadyRun)."
  },
  {
   "property": "C155",
   "status": "proved",
   "theorems": [
    "CfnLint.C155_grows",
    "CfnLint.C155_same",
    "CfnLint.C155_disabled",
    "CfnLint.C155_options"
   ],
   "note": "Under the assumptions of C153 (SteadyRun) for both runs."
  },
  {
   "property": "C156",
   "status": "proved",
   "theorems": [
    "CfnLint.C156_unconfigured",
    "CfnLint.C156_alone",
    "CfnLint.C156_function",
    "CfnLint.C156_order"
   ],
   "note": "Rules whose behaviour depends on options are covered when nothing configures rules (C156_unconfigured); options set by an earlier template do leak into later ones (C04_options_violated)."
  },
  {
   "property": "C157",
   "status": "proved",
   "theorems": [
    "CfnLint.C157_bad"
   ],
   "note": "Assumes rules do the same whatever their options, and that no source of configuration asks to ignore templates that cannot be decoded; without the latter the setting of an earlier template does leak (C14_history_violated)."
  }
 ]
}