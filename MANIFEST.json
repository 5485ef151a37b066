{
 "claims": [
  {
   "property": "C01",
   "status": "proved",
   "theorems": [
    "Verif.Props.C01_merge_overlay",
    "Verif.Props.C01_nonmap_replaces"
   ],
   "note": "Merge is a deep, right-biased overlay, path by path"
  },
  {
   "property": "C02",
   "status": "proved",
   "theorems": [
    "Verif.Props.C02_merge_empty",
    "Verif.Props.C02_empty_merge",
    "Verif.Props.C02_merge_self",
    "Verif.Props.C02_merge_twice"
   ],
   "note": "Merge identity, idempotence and absorption"
  },
  {
   "property": "C03",
   "status": "proved",
   "theorems": [
    "Verif.Props.C03_grouping",
    "Verif.Props.C03_not_associative"
   ],
   "note": "When the grouping of merges is irrelevant"
  },
  {
   "property": "C04",
   "status": "proved",
   "theorems": [
    "Verif.Props.C04_order_independent"
   ],
   "note": "Merge does not depend on HashMap iteration order"
  },
  {
   "property": "C05",
   "status": "proved",
   "theorems": [
    "Verif.Props.C05_nonmap_noop",
    "Verif.Props.C05_kind"
   ],
   "note": "Merge with a non-map is a no-op"
  },
  {
   "property": "C06",
   "status": "proved",
   "theorems": [
    "Verif.Props.C06_key_union",
    "Verif.Props.C06_submap",
    "Verif.Props.C06_len"
   ],
   "note": "Merge never loses a key and never invents one"
  },
  {
   "property": "C07",
   "status": "proved",
   "theorems": [
    "Verif.Props.C07_last_speaker",
    "Verif.Props.C07_nobody_speaks",
    "Verif.Props.C07_cases"
   ],
   "note": "build_value shows, at each path, the last layer that speaks about it"
  },
  {
   "property": "C08",
   "status": "proved",
   "theorems": [
    "Verif.Props.C08_map",
    "Verif.Props.C08_builtin_proper"
   ],
   "note": "build_value always yields a map with unique keys"
  },
  {
   "property": "C09",
   "status": "proved",
   "theorems": [
    "Verif.Props.C09_skip"
   ],
   "note": "skip_on_error = true never fails and equals dropping the failing layers"
  },
  {
   "property": "C10",
   "status": "proved",
   "theorems": [
    "Verif.Props.C10_first_error",
    "Verif.Props.C10_success"
   ],
   "note": "skip_on_error = false fails with the first failing layer, else agrees with true"
  },
  {
   "property": "C11",
   "status": "proved",
   "theorems": [
    "Verif.Props.C11_first_wins",
    "Verif.Props.C11_taken",
    "Verif.Props.C11_stable"
   ],
   "note": "Layer registry: first registration wins, order is registration order"
  },
  {
   "property": "C12",
   "status": "proved",
   "theorems": [
    "Verif.Props.C12_accepts",
    "Verif.Props.C12_rejects",
    "Verif.Props.C12_with"
   ],
   "note": "add_file_layer accepts exactly the enabled extensions and is atomic on error"
  },
  {
   "property": "C13",
   "status": "proved",
   "theorems": [
    "Verif.Props.C13_only_inputs"
   ],
   "note": "build_value depends only on its own inputs"
  },
  {
   "property": "C14",
   "status": "proved",
   "theorems": [
    "Verif.Props.C14_add_last",
    "Verif.Props.C14_override",
    "Verif.Props.C14_failing"
   ],
   "note": "A layer added last overrides, and only where it speaks"
  },
  {
   "property": "C15",
   "status": "proved",
   "theorems": [
    "Verif.Props.C15_set_ok",
    "Verif.Props.C15_get_after_sets",
    "Verif.Props.C15_keys_after_sets",
    "Verif.Props.C15_from_new"
   ],
   "note": "Map values behave like a finite map under any history of set"
  },
  {
   "property": "C16",
   "status": "proved",
   "theorems": [
    "Verif.Props.C16_pushes",
    "Verif.Props.C16_from_new"
   ],
   "note": "Array values behave like a list under any history of push"
  },
  {
   "property": "C17",
   "status": "proved",
   "theorems": [
    "Verif.Props.C17_iter"
   ],
   "note": "iter() yields exactly the elements, in order, then ends for good"
  },
  {
   "property": "C18",
   "status": "proved",
   "theorems": [
    "Verif.Props.C18_wrong_kind",
    "Verif.Props.C18_chain"
   ],
   "note": "Wrong-kind accesses are harmless"
  },
  {
   "property": "C19",
   "status": "proved",
   "theorems": [
    "Verif.Props.C19_value_map",
    "Verif.Props.C19_value_vec"
   ],
   "note": "value_map! and value_vec! build what they spell and never panic"
  },
  {
   "property": "C20",
   "status": "proved",
   "theorems": [
    "Verif.Props.C20_len_map",
    "Verif.Props.C20_len_other",
    "Verif.Props.C20_len_updates"
   ],
   "note": "len counts what is there"
  },
  {
   "property": "C21",
   "status": "proved",
   "theorems": [
    "Verif.Props.C21_eq_iff",
    "Verif.Props.C21_symm_trans",
    "Verif.Props.C21_refl"
   ],
   "note": "== on values ignores map order and is an equivalence except for NaN"
  },
  {
   "property": "C22",
   "status": "proved",
   "theorems": [
    "Verif.Props.C22_from",
    "Verif.Props.C22_every_history",
    "Verif.Props.C22_unique_keys",
    "Verif.Props.C22_macros"
   ],
   "note": "No API call can create a map with a duplicate key"
  },
  {
   "property": "C23",
   "status": "proved",
   "theorems": [
    "Verif.Props.C23_int_to_int",
    "Verif.Props.C23_bool_to_int"
   ],
   "note": "Integer conversions are exact or an error, never wrap"
  },
  {
   "property": "C24",
   "status": "proved",
   "theorems": [
    "Verif.Props.C24_int_roundtrip",
    "Verif.Props.C24_stored",
    "Verif.Props.C24_scalar_roundtrip",
    "Verif.Props.C24_containers"
   ],
   "note": "From then TryInto returns the original"
  },
  {
   "property": "C25",
   "status": "proved",
   "theorems": [
    "Verif.Props.C25_string_to_int",
    "Verif.Props.C25_examples"
   ],
   "note": "Strings convert to integers exactly when they spell one in range"
  },
  {
   "property": "C26",
   "status": "proved",
   "theorems": [
    "Verif.Props.C26_int_text_roundtrip",
    "Verif.Props.C26_text_injective"
   ],
   "note": "Integer to text and back is lossless"
  },
  {
   "property": "C27",
   "status": "proved",
   "theorems": [
    "Verif.Props.C27_float_to_int",
    "Verif.Props.C27_float_to_u128",
    "Verif.Props.C27_nan_inf"
   ],
   "note": "Float to integer truncates; only small types report overflow"
  },
  {
   "property": "C28",
   "status": "proved",
   "theorems": [
    "Verif.Props.C28_int_to_float",
    "Verif.Props.C28_back",
    "Verif.Props.C28_bool_to_float",
    "Verif.Props.C28_lossy"
   ],
   "note": "Integer to float is exact up to 2^53 and correctly rounded beyond"
  },
  {
   "property": "C29",
   "status": "proved",
   "theorems": [
    "Verif.Props.C29_number_to_bool",
    "Verif.Props.C29_string_to_bool"
   ],
   "note": "Boolean conversion rules"
  },
  {
   "property": "C30",
   "status": "proved",
   "theorems": [
    "Verif.Props.C30_to_char",
    "Verif.Props.C30_int_to_char"
   ],
   "note": "Char conversion rules"
  },
  {
   "property": "C31",
   "status": "proved",
   "theorems": [
    "Verif.Props.C31_containers_never_convert",
    "Verif.Props.C31_error_names_target",
    "Verif.Props.C31_error_exact"
   ],
   "note": "None, arrays and maps never convert to a scalar, and say so"
  },
  {
   "property": "C32",
   "status": "proved",
   "theorems": [
    "Verif.Props.C32_into_or"
   ],
   "note": "into_<type>_or falls back exactly on failure"
  },
  {
   "property": "C33",
   "status": "proved",
   "theorems": [
    "Verif.Props.C33_string_is_display",
    "Verif.Props.C33_display_containers"
   ],
   "note": "try_into_string is Display, restricted to scalars"
  },
  {
   "property": "C34",
   "status": "proved",
   "theorems": [
    "Verif.Props.C34_float_text_roundtrip",
    "Verif.Props.C34_injective"
   ],
   "note": "Float to text and back is lossless"
  },
  {
   "property": "C35",
   "status": "proved",
   "theorems": [
    "Verif.Props.C35_deserialize_value"
   ],
   "note": "Deserializing a Value into a Value is the identity"
  },
  {
   "property": "C36",
   "status": "proved",
   "theorems": [
    "Verif.Props.C36_serialize_value"
   ],
   "note": "Serializing a Value into a Value is the identity except on 128-bit integers"
  },
  {
   "property": "C37",
   "status": "proved",
   "theorems": [
    "Verif.Props.C37_typed_roundtrip",
    "Verif.Props.C37_nested_option_lost"
   ],
   "note": "Typed round trip through a Value"
  },
  {
   "property": "C38",
   "status": "proved",
   "theorems": [
    "Verif.Props.C38_no_panic",
    "Verif.Props.C38_depth_exists",
    "Verif.Props.C38_enum_bytes_panic",
    "Verif.Props.C38_stack"
   ],
   "note": "Exactly which deserializations panic"
  },
  {
   "property": "C39",
   "status": "proved",
   "theorems": [
    "Verif.Props.C39_struct",
    "Verif.Props.C39_own_keys",
    "Verif.Props.C39_nonmap",
    "Verif.Props.C39_missing_required"
   ],
   "note": "Struct deserialization: extra keys ignored, missing options are None, missing required fields fail"
  },
  {
   "property": "C40",
   "status": "proved",
   "theorems": [
    "Verif.Props.C40_vec",
    "Verif.Props.C40_tuple",
    "Verif.Props.C40_surplus_dropped"
   ],
   "note": "Sequence lengths in deserialization"
  },
  {
   "property": "C41",
   "status": "proved",
   "theorems": [
    "Verif.Props.C41_never_panics",
    "Verif.Props.C41_succeeds_iff",
    "Verif.Props.C41_layout",
    "Verif.Props.C41_scalars"
   ],
   "note": "Serialization never panics and has a fixed layout"
  },
  {
   "property": "C42",
   "status": "proved",
   "theorems": [
    "Verif.Props.C42_map_keys",
    "Verif.Props.C42_text_injective"
   ],
   "note": "Map keys of any scalar type survive as text"
  },
  {
   "property": "C43",
   "status": "proved",
   "theorems": [
    "Verif.Props.C43_no_128",
    "Verif.Props.C43_direct_conversion"
   ],
   "note": "128-bit integers cross serde only as raw Values"
  },
  {
   "property": "C44",
   "status": "proved",
   "theorems": [
    "Verif.Props.C44_order_independent",
    "Verif.Props.C44_clash_is_real",
    "Verif.Props.C44_string_keys_never_clash"
   ],
   "note": "Deserialization success and result do not depend on map iteration order"
  },
  {
   "property": "C45",
   "status": "proved",
   "theorems": [
    "Verif.Props.C45_find_first"
   ],
   "note": "find_first returns the first existing candidate"
  },
  {
   "property": "C46",
   "status": "proved",
   "theorems": [
    "Verif.Props.C46_find_last"
   ],
   "note": "find_last returns the last existing candidate"
  },
  {
   "property": "C47",
   "status": "proved",
   "theorems": [
    "Verif.Props.C47_find_all",
    "Verif.Props.C47_index_overflow"
   ],
   "note": "find_all returns exactly the matching candidates, in order, numbered from 0"
  },
  {
   "property": "C48",
   "status": "proved",
   "theorems": [
    "Verif.Props.C48_find_all_or_first"
   ],
   "note": "find_all_or_first is find_all with a fallback to the first candidate"
  },
  {
   "property": "C49",
   "status": "proved",
   "theorems": [
    "Verif.Props.C49_validation",
    "Verif.Props.C49_separator"
   ],
   "note": "Finder validation"
  },
  {
   "property": "C50",
   "status": "proved",
   "theorems": [
    "Verif.Props.C50_plain",
    "Verif.Props.C50_dotted",
    "Verif.Props.C50_join",
    "Verif.Props.C50_absolute",
    "Verif.Props.C50_empty_extension",
    "Verif.Props.C50_extension",
    "Verif.Props.C50_no_file_name"
   ],
   "note": "Candidate paths are <folder>/<name>.<ext>, but a dotted name loses its last segment"
  },
  {
   "property": "C51",
   "status": "proved",
   "theorems": [
    "Verif.Props.C51_truthful",
    "Verif.Props.C51_exists",
    "Verif.Props.C51_from"
   ],
   "note": "FindResult fields are truthful, except the extension tag"
  },
  {
   "property": "C52",
   "status": "proved",
   "theorems": [
    "Verif.Props.C52_builder",
    "Verif.Props.C52_resolves",
    "Verif.Props.C52_no_base_dirs",
    "Verif.Props.C52_supported"
   ],
   "note": "OS directory resolution"
  },
  {
   "property": "C53",
   "status": "proved",
   "theorems": [
    "Verif.Props.C53_agree",
    "Verif.Props.C53_all_true"
   ],
   "note": "The four searches agree with each other"
  },
  {
   "property": "C54",
   "status": "proved",
   "theorems": [
    "Verif.Props.C54_reads",
    "Verif.Props.C54_cases",
    "Verif.Props.C54_plain"
   ],
   "note": "Environment layer: exactly the prefixed variables, with the prefix removed"
  },
  {
   "property": "C55",
   "status": "proved",
   "theorems": [
    "Verif.Props.C55_blank",
    "Verif.Props.C55_readable",
    "Verif.Props.C55_junk",
    "Verif.Props.C55_collisions",
    "Verif.Props.C55_collision_witness"
   ],
   "note": "Environment layer: blank prefix is an error, junk is ignored, collisions are possible"
  },
  {
   "property": "C56",
   "status": "proved",
   "theorems": [
    "Verif.Props.C56_missing",
    "Verif.Props.C56_content",
    "Verif.Props.C56_errors",
    "Verif.Props.C56_disk",
    "Verif.Props.C56_missing_no_effect"
   ],
   "note": "File layer: missing file is an empty map, unreadable or malformed file is an error"
  },
  {
   "property": "C57",
   "status": "proved",
   "theorems": [
    "Verif.Props.C57_write",
    "Verif.Props.C57_read_back",
    "Verif.Props.C57_others"
   ],
   "note": "Writing a layer and reading it back"
  },
  {
   "property": "C58",
   "status": "proved",
   "theorems": [
    "Verif.Props.C58_read_only",
    "Verif.Props.C58_can_write_lies",
    "Verif.Props.C58_has_value",
    "Verif.Props.C58_memory_fixed",
    "Verif.Props.C58_names"
   ],
   "note": "Memory and environment layers are read-only; can_write is not reliable"
  },
  {
   "property": "C59",
   "status": "proved",
   "theorems": [
    "Verif.Props.C59_crash",
    "Verif.Props.C59_every_prefix",
    "Verif.Props.C59_end",
    "Verif.Props.C59_loss"
   ],
   "note": "Crash during write_value"
  },
  {
   "property": "C60",
   "status": "proved",
   "theorems": [
    "Verif.Props.C60_order",
    "Verif.Props.C60_default_first",
    "Verif.Props.C60_env_wins",
    "Verif.Props.C60_defaults_underneath"
   ],
   "note": "create_config! layer order and precedence"
  },
  {
   "property": "C61",
   "status": "proved",
   "theorems": [
    "Verif.Props.C61_init_safe",
    "Verif.Props.C61_existing_kept",
    "Verif.Props.C61_no_init",
    "Verif.Props.C61_repeated_name_overwrites"
   ],
   "note": "create_config! init never overwrites an existing file, provided layer names are distinct"
  },
  {
   "property": "C62",
   "status": "proved",
   "theorems": [
    "Verif.Props.C62_second_run",
    "Verif.Props.C62_fresh_defaults"
   ],
   "note": "Freshly initialised configuration reads back the defaults"
  },
  {
   "property": "C63",
   "status": "proved",
   "theorems": [
    "Verif.Props.C63_exists_at_check",
    "Verif.Props.C63_lost",
    "Verif.Props.C63_lost_witness"
   ],
   "note": "init is not safe against concurrent creation"
  },
  {
   "property": "C64",
   "status": "proved",
   "theorems": [
    "Verif.Props.C64_kinds",
    "Verif.Props.C64_kind_is_stable"
   ],
   "note": "Kinds of a value are decidable, disjoint and stable"
  },
  {
   "property": "C65",
   "status": "proved",
   "theorems": [
    "Verif.Props.C65_succeeds",
    "Verif.Props.C65_content",
    "Verif.Props.C65_determined"
   ],
   "note": "A document of any format is read faithfully as a Value"
  },
  {
   "property": "C66",
   "status": "proved",
   "theorems": [
    "Verif.Props.C66_reads",
    "Verif.Props.C66_conversions",
    "Verif.Props.C66_deserialize",
    "Verif.Props.C66_merge",
    "Verif.Props.C66_file",
    "Verif.Props.C66_build",
    "Verif.Props.C66_kind_is_lost",
    "Verif.Props.C66_typed",
    "Verif.Props.C66_deserialize_values",
    "Verif.Props.C66_settings"
   ],
   "note": "A round trip through a text format is unobservable to typed readers"
  },
  {
   "property": "C67",
   "status": "proved",
   "theorems": [
    "Verif.Props.C67_init_creates",
    "Verif.Props.C67_init_exact"
   ],
   "note": "init: true really initialises its layer"
  },
  {
   "property": "C68",
   "status": "proved",
   "theorems": [
    "Verif.Props.C68_panics_iff",
    "Verif.Props.C68_result",
    "Verif.Props.C68_pending",
    "Verif.Props.C68_variant",
    "Verif.Props.C68_question_mark",
    "Verif.Props.C68_standard",
    "Verif.Props.C68_elements"
   ],
   "note": "Hand-written Serialize implementations get exactly what they stored"
  },
  {
   "property": "C69",
   "status": "proved",
   "theorems": [
    "Verif.Props.C69_map_access",
    "Verif.Props.C69_alternating",
    "Verif.Props.C69_keys_only",
    "Verif.Props.C69_values_only",
    "Verif.Props.C69_elements",
    "Verif.Props.C69_standard"
   ],
   "note": "Hand-written visitors see a map or array exactly as it is"
  },
  {
   "property": "C70",
   "status": "proved",
   "theorems": [
    "Verif.Props.C70_find_first",
    "Verif.Props.C70_find_last",
    "Verif.Props.C70_find_all",
    "Verif.Props.C70_find_all_or_first",
    "Verif.Props.C70_undisturbed",
    "Verif.Props.C70_persistent",
    "Verif.Props.C70_flag_may_contradict"
   ],
   "note": "Searches among other processes answer by what they saw"
  },
  {
   "property": "C71",
   "status": "proved",
   "theorems": [
    "Verif.Props.C71_snapshot",
    "Verif.Props.C71_file_reading",
    "Verif.Props.C71_undisturbed",
    "Verif.Props.C71_skip",
    "Verif.Props.C71_only_under_race"
   ],
   "note": "build_value among other processes works on one reading of each layer"
  },
  {
   "property": "C72",
   "status": "proved",
   "theorems": [
    "Verif.Props.C72_alone",
    "Verif.Props.C72_moments",
    "Verif.Props.C72_torn",
    "Verif.Props.C72_prefix",
    "Verif.Props.C72_mixture"
   ],
   "note": "A reader during a write gets old bytes continued by new bytes"
  },
  {
   "property": "C73",
   "status": "proved",
   "theorems": [
    "Verif.Props.C73_nothing_else",
    "Verif.Props.C73_last_opener",
    "Verif.Props.C73_same_text",
    "Verif.Props.C73_bytes",
    "Verif.Props.C73_alone",
    "Verif.Props.C73_mixture",
    "Verif.Props.C73_hole"
   ],
   "note": "Concurrent writers of one file"
  },
  {
   "property": "C74",
   "status": "proved",
   "theorems": [
    "Verif.Props.C74_typed_values",
    "Verif.Props.C74_every_run",
    "Verif.Props.C74_typed_default",
    "Verif.Props.C74_typed_struct"
   ],
   "note": "Typed defaults survive every run"
  },
  {
   "property": "C75",
   "status": "proved",
   "theorems": [
    "Verif.Props.C75_section",
    "Verif.Props.C75_typed_struct"
   ],
   "note": "A section is layered on its own"
  },
  {
   "property": "C76",
   "status": "proved",
   "theorems": [
    "Verif.Props.C76_env_typed"
   ],
   "note": "An environment variable decides its key, as text"
  },
  {
   "property": "C77",
   "status": "proved",
   "theorems": [
    "Verif.Props.C77_save",
    "Verif.Props.C77_failed_save"
   ],
   "note": "Saving through a file layer, then building"
  },
  {
   "property": "C78",
   "status": "proved",
   "theorems": [
    "Verif.Props.C78_same",
    "Verif.Props.C78_panics",
    "Verif.Props.C78_later"
   ],
   "note": "The README's hand-written program and create_config! are the same"
  },
  {
   "property": "C79",
   "status": "proved",
   "theorems": [
    "Verif.Props.C79_eq",
    "Verif.Props.C79_model_text",
    "Verif.Props.C79_layer_text",
    "Verif.Props.C79_finder_text",
    "Verif.Props.C79_text",
    "Verif.Props.C79_conversions"
   ],
   "note": "Errors can be told apart"
  },
  {
   "property": "C80",
   "status": "proved",
   "theorems": [
    "Verif.Props.C80_config",
    "Verif.Props.C80_writes",
    "Verif.Props.C80_damage",
    "Verif.Props.C80_alone"
   ],
   "note": "create_config! among other processes"
  },
  {
   "property": "C81",
   "status": "proved",
   "theorems": [
    "Verif.Props.C81_number",
    "Verif.Props.C81_long",
    "Verif.Props.C81_capped",
    "Verif.Props.C81_words",
    "Verif.Props.C81_error"
   ],
   "note": "Which texts are floats, and which float"
  },
  {
   "property": "C82",
   "status": "proved",
   "theorems": [
    "Verif.Props.C82_scalars",
    "Verif.Props.C82_f32",
    "Verif.Props.C82_rounded_twice"
   ],
   "note": "Typed reading of a scalar is the direct conversion"
  },
  {
   "property": "C83",
   "status": "proved",
   "theorems": [
    "Verif.Props.C83_float_shortest",
    "Verif.Props.C83_integer",
    "Verif.Props.C83_words",
    "Verif.Props.C83_bool_back"
   ],
   "note": "The text of a scalar is canonical and shortest"
  },
  {
   "property": "C84",
   "status": "proved",
   "theorems": [
    "Verif.Props.C84_typed_values",
    "Verif.Props.C84_write",
    "Verif.Props.C84_read_back",
    "Verif.Props.C84_get",
    "Verif.Props.C84_stable",
    "Verif.Props.C84_save",
    "Verif.Props.C84_none_does_not_hide",
    "Verif.Props.C84_none_in_memory_hides",
    "Verif.Props.C84_typed",
    "Verif.Props.C84_map_of_options"
   ],
   "note": "What saving to TOML does to a value"
  },
  {
   "property": "C85",
   "status": "proved",
   "theorems": [
    "Verif.Props.C85_every_run",
    "Verif.Props.C85_all",
    "Verif.Props.C85_typed_struct",
    "Verif.Props.C85_lost",
    "Verif.Props.C85_typed_values"
   ],
   "note": "Defaults with None through create_config! and TOML"
  },
  {
   "property": "C86",
   "status": "proved",
   "theorems": [
    "Verif.Props.C86_frame",
    "Verif.Props.C86_edit"
   ],
   "note": "Editing one setting of a file layer"
  },
  {
   "property": "C87",
   "status": "proved",
   "theorems": [
    "Verif.Props.C87_save_built",
    "Verif.Props.C87_unchanged",
    "Verif.Props.C87_last_layer",
    "Verif.Props.C87_twice"
   ],
   "note": "Saving the built value into one of its layers"
  },
  {
   "property": "C88",
   "status": "proved",
   "theorems": [
    "Verif.Props.C88_reads_each_once",
    "Verif.Props.C88_stops",
    "Verif.Props.C88_cases",
    "Verif.Props.C88_record",
    "Verif.Props.C88_last_speaker",
    "Verif.Props.C88_stateless",
    "Verif.Props.C88_get_layer",
    "Verif.Props.C88_write"
   ],
   "note": "build_value calls each layer once, in order, and stops at the first failure"
  },
  {
   "property": "C89",
   "status": "proved",
   "theorems": [
    "Verif.Props.C89_environment",
    "Verif.Props.C89_environment_exact",
    "Verif.Props.C89_file",
    "Verif.Props.C89_file_written",
    "Verif.Props.C89_debug",
    "Verif.Props.C89_debug_builtin"
   ],
   "note": "What layers and configurations tell about themselves"
  },
  {
   "property": "C90",
   "status": "proved",
   "theorems": [
    "Verif.Props.C90_exact",
    "Verif.Props.C90_plain",
    "Verif.Props.C90_nonmap_no_panic",
    "Verif.Props.C90_own_keys",
    "Verif.Props.C90_defaults",
    "Verif.Props.C90_split_alias",
    "Verif.Props.C90_deny",
    "Verif.Props.C90_roundtrip"
   ],
   "note": "Structs with serde attributes read from a configuration"
  },
  {
   "property": "C91",
   "status": "proved",
   "theorems": [
    "Verif.Props.C91_tagged_within",
    "Verif.Props.C91_buffer",
    "Verif.Props.C91_untagged",
    "Verif.Props.C91_tagged",
    "Verif.Props.C91_flatten",
    "Verif.Props.C91_text",
    "Verif.Props.C91_scalars",
    "Verif.Props.C91_containers",
    "Verif.Props.C91_differences",
    "Verif.Props.C91_env",
    "Verif.Props.C91_enum",
    "Verif.Props.C91_tagged_list"
   ],
   "note": "Types serde reads through a buffer: flatten, untagged and internally tagged enums"
  },
  {
   "property": "C92",
   "status": "proved",
   "theorems": [
    "Verif.Props.C92_which",
    "Verif.Props.C92_one_call",
    "Verif.Props.C92_panics",
    "Verif.Props.C92_hints",
    "Verif.Props.C92_faithful",
    "Verif.Props.C92_types",
    "Verif.Props.C92_self",
    "Verif.Props.C92_buffer"
   ],
   "note": "What any visitor is shown"
  },
  {
   "property": "C93",
   "status": "proved",
   "theorems": [
    "Verif.Props.C93_set",
    "Verif.Props.C93_nonzero",
    "Verif.Props.C93_parsed",
    "Verif.Props.C93_duration",
    "Verif.Props.C93_duration_roundtrip",
    "Verif.Props.C93_range",
    "Verif.Props.C93_never",
    "Verif.Props.C93_text"
   ],
   "note": "Standard library types in a configuration"
  },
  {
   "property": "C94",
   "status": "proved",
   "theorems": [
    "Verif.Props.C94_hash_order",
    "Verif.Props.C94_display",
    "Verif.Props.C94_display_order",
    "Verif.Props.C94_error_order",
    "Verif.Props.C94_goes_on"
   ],
   "note": "A program cannot observe the order of a HashMap"
  },
  {
   "property": "C95",
   "status": "proved",
   "theorems": [
    "Verif.Props.C95_floor",
    "Verif.Props.C95_key_kept",
    "Verif.Props.C95_defaults",
    "Verif.Props.C95_typed",
    "Verif.Props.C95_example",
    "Verif.Props.C95_removed"
   ],
   "note": "What a layer holds is a floor; defaults are never missing"
  },
  {
   "property": "C96",
   "status": "proved",
   "theorems": [
    "Verif.Props.C96_hash_order",
    "Verif.Props.C96_goes_on",
    "Verif.Props.C96_bytes_differ",
    "Verif.Props.C96_format_matters"
   ],
   "note": "A program that writes files cannot observe the order of hash maps either"
  },
  {
   "property": "C97",
   "status": "proved",
   "theorems": [
    "Verif.Props.C97_direct",
    "Verif.Props.C97_inside",
    "Verif.Props.C97_list",
    "Verif.Props.C97_written",
    "Verif.Props.C97_order",
    "Verif.Props.C97_config"
   ],
   "note": "Adjacently tagged enums can be written but never read"
  },
  {
   "property": "C98",
   "status": "proved",
   "theorems": [
    "Verif.Props.C98_scalars",
    "Verif.Props.C98_containers",
    "Verif.Props.C98_struct",
    "Verif.Props.C98_untagged",
    "Verif.Props.C98_enum",
    "Verif.Props.C98_tagged",
    "Verif.Props.C98_flatten",
    "Verif.Props.C98_adjacent",
    "Verif.Props.C98_untagged_lost"
   ],
   "note": "What is saved of types serde buffers is read back"
  },
  {
   "property": "C99",
   "status": "proved",
   "theorems": [
    "Verif.Props.C99_scalars",
    "Verif.Props.C99_containers",
    "Verif.Props.C99_struct",
    "Verif.Props.C99_untagged",
    "Verif.Props.C99_enum",
    "Verif.Props.C99_tagged",
    "Verif.Props.C99_flatten",
    "Verif.Props.C99_adjacent",
    "Verif.Props.C99_adjacent_order",
    "Verif.Props.C99_refused",
    "Verif.Props.C99_kept"
   ],
   "note": "Reading a typed value does not depend on the order of hash maps"
  },
  {
   "property": "C100",
   "status": "proved",
   "theorems": [
    "Verif.Props.C100_same",
    "Verif.Props.C100_first_error",
    "Verif.Props.C100_in_place",
    "Verif.Props.C100_iff"
   ],
   "note": "Chaining is registering in place"
  },
  {
   "property": "C101",
   "status": "proved",
   "theorems": [
    "Verif.Props.C101_any_moment",
    "Verif.Props.C101_killed",
    "Verif.Props.C101_files",
    "Verif.Props.C101_builds",
    "Verif.Props.C101_later",
    "Verif.Props.C101_toml",
    "Verif.Props.C101_created",
    "Verif.Props.C101_mixture"
   ],
   "note": "Several processes start for the first time at once"
  },
  {
   "property": "C102",
   "status": "proved",
   "theorems": [
    "Verif.Props.C102_save_built",
    "Verif.Props.C102_unchanged",
    "Verif.Props.C102_last_layer",
    "Verif.Props.C102_twice",
    "Verif.Props.C102_frame",
    "Verif.Props.C102_edit"
   ],
   "note": "Editing a TOML layer and saving the built value as TOML"
  },
  {
   "property": "C103",
   "status": "proved",
   "theorems": [
    "Verif.Props.C103_history",
    "Verif.Props.C103_last_saver",
    "Verif.Props.C103_taking_turns",
    "Verif.Props.C103_toml",
    "Verif.Props.C103_built"
   ],
   "note": "Several programs that edit one settings file: last saver wins, except where they take turns"
  },
  {
   "property": "C104",
   "status": "proved",
   "theorems": [
    "Verif.Props.C104_history",
    "Verif.Props.C104_interrupted",
    "Verif.Props.C104_repair"
   ],
   "note": "Editing a settings file while things go wrong: memory is unaffected and the next successful save repairs the file"
  },
  {
   "property": "C105",
   "status": "proved",
   "theorems": [
    "Verif.Props.C105_files_stay",
    "Verif.Props.C105_first_defaults_stick",
    "Verif.Props.C105_toml",
    "Verif.Props.C105_leaves_file",
    "Verif.Props.C105_typed",
    "Verif.Props.C105_other_places"
   ],
   "note": "Upgrades: the first version's defaults stick"
  },
  {
   "property": "C106",
   "status": "proved",
   "theorems": [
    "Verif.Props.C106_home",
    "Verif.Props.C106_linux",
    "Verif.Props.C106_macos",
    "Verif.Props.C106_layer",
    "Verif.Props.C106_only_two_variables"
   ],
   "note": "The documented directories of Linux and macOS"
  },
  {
   "property": "C107",
   "status": "proved",
   "theorems": [
    "Verif.Props.C107_same",
    "Verif.Props.C107_build",
    "Verif.Props.C107_warnings",
    "Verif.Props.C107_quiet",
    "Verif.Props.C107_registering"
   ],
   "note": "The log of a configuration: no layer is skipped without a warning"
  },
  {
   "property": "C108",
   "status": "proved",
   "theorems": [
    "Verif.Props.C108_build",
    "Verif.Props.C108_write",
    "Verif.Props.C108_leaks"
   ],
   "note": "Configuration values do not get into the log"
  },
  {
   "property": "C109",
   "status": "proved",
   "theorems": [
    "Verif.Props.C109_same",
    "Verif.Props.C109_log",
    "Verif.Props.C109_warnings",
    "Verif.Props.C109_quiet",
    "Verif.Props.C109_swallowed",
    "Verif.Props.C109_texts"
   ],
   "note": "The log of create_config!: silence means every layer is in place"
  },
  {
   "property": "C110",
   "status": "proved",
   "theorems": [
    "Verif.Props.C110_silent"
   ],
   "note": "A program that starts without a warning has loaded everything"
  },
  {
   "property": "C111",
   "status": "proved",
   "theorems": [
    "Verif.Props.C111_two",
    "Verif.Props.C111_path",
    "Verif.Props.C111_succeeds",
    "Verif.Props.C111_order"
   ],
   "note": "When the order of layers is irrelevant"
  },
  {
   "property": "C112",
   "status": "proved",
   "theorems": [
    "Verif.Props.C112_reach",
    "Verif.Props.C112_build"
   ],
   "note": "What one more layer can and cannot achieve"
  },
  {
   "property": "C113",
   "status": "proved",
   "theorems": [
    "Verif.Props.C113_path",
    "Verif.Props.C113_succeeds",
    "Verif.Props.C113_shows_through"
   ],
   "note": "When a layer can be left out"
  },
  {
   "property": "C114",
   "status": "proved",
   "theorems": [
    "Verif.Props.C114_none_hides_below",
    "Verif.Props.C114_merge",
    "Verif.Props.C114_build",
    "Verif.Props.C114_required",
    "Verif.Props.C114_settings",
    "Verif.Props.C114_piece",
    "Verif.Props.C114_one_suffices",
    "Verif.Props.C114_none_hides"
   ],
   "note": "Typed settings are layered field by field"
  },
  {
   "property": "C115",
   "status": "proved",
   "theorems": [
    "Verif.Props.C115_save_settings",
    "Verif.Props.C115_piece"
   ],
   "note": "Saving settings given in part into a TOML layer"
  },
  {
   "property": "C116",
   "status": "proved",
   "theorems": [
    "Verif.Props.C116_reads",
    "Verif.Props.C116_content",
    "Verif.Props.C116_entry"
   ],
   "note": "Reading a map with typed keys"
  },
  {
   "property": "C117",
   "status": "proved",
   "theorems": [
    "Verif.Props.C117_upgrade",
    "Verif.Props.C117_agree",
    "Verif.Props.C117_saved",
    "Verif.Props.C117_layers",
    "Verif.Props.C117_taken",
    "Verif.Props.C117_taken_name"
   ],
   "note": "Settings stay readable when their type changes"
  },
  {
   "property": "C118",
   "status": "proved",
   "theorems": [
    "Verif.Props.C118_typed",
    "Verif.Props.C118_reread",
    "Verif.Props.C118_resave",
    "Verif.Props.C118_forgotten",
    "Verif.Props.C118_values"
   ],
   "note": "Settings that were read can be saved and read again"
  },
  {
   "property": "C119",
   "status": "proved",
   "theorems": [
    "Verif.Props.C119_footprint",
    "Verif.Props.C119_other_fields",
    "Verif.Props.C119_layer",
    "Verif.Props.C119_configurations",
    "Verif.Props.C119_environment"
   ],
   "note": "Settings depend only on what their type names"
  },
  {
   "property": "C120",
   "status": "proved",
   "theorems": [
    "Verif.Props.C120_settled",
    "Verif.Props.C120_saved",
    "Verif.Props.C120_frozen",
    "Verif.Props.C120_table"
   ],
   "note": "Saving all settings pins them"
  },
  {
   "property": "C121",
   "status": "proved",
   "theorems": [
    "Verif.Props.C121_places",
    "Verif.Props.C121_depth",
    "Verif.Props.C121_size",
    "Verif.Props.C121_finite",
    "Verif.Props.C121_holds",
    "Verif.Props.C121_environment",
    "Verif.Props.C121_exported",
    "Verif.Props.C121_settings",
    "Verif.Props.C121_settings_values"
   ],
   "note": "A built configuration can be exported to one file"
  },
  {
   "property": "C122",
   "status": "proved",
   "theorems": [
    "Verif.Props.C122_text",
    "Verif.Props.C122_fits",
    "Verif.Props.C122_overrides",
    "Verif.Props.C122_reachable",
    "Verif.Props.C122_safe",
    "Verif.Props.C122_breaks",
    "Verif.Props.C122_program"
   ],
   "note": "What the environment can do to typed settings"
  },
  {
   "property": "C123",
   "status": "proved",
   "theorems": [
    "Verif.Props.C123_search",
    "Verif.Props.C123_search_blind",
    "Verif.Props.C123_start",
    "Verif.Props.C123_blind",
    "Verif.Props.C123_subfolder",
    "Verif.Props.C123_escapes"
   ],
   "note": "Everything stays inside the given directories"
  },
  {
   "property": "C124",
   "status": "proved",
   "theorems": [
    "Verif.Props.C124_path",
    "Verif.Props.C124_gone",
    "Verif.Props.C124_broken",
    "Verif.Props.C124_restored",
    "Verif.Props.C124_settings"
   ],
   "note": "Building again after a settings file was changed from outside"
  },
  {
   "property": "C125",
   "status": "proved",
   "theorems": [
    "Verif.Props.C125_shows",
    "Verif.Props.C125_else",
    "Verif.Props.C125_same",
    "Verif.Props.C125_none",
    "Verif.Props.C125_error"
   ],
   "note": "Cascading settings files: the last file found that speaks wins, and missing ones do not matter"
  },
  {
   "property": "C126",
   "status": "proved",
   "theorems": [
    "Verif.Props.C126_operations",
    "Verif.Props.C126_work",
    "Verif.Props.C126_build_work",
    "Verif.Props.C126_stack",
    "Verif.Props.C126_build_stack"
   ],
   "note": "The work and the stack of merging depend on the overlay and what it replaces"
  },
  {
   "property": "C127",
   "status": "proved",
   "theorems": [
    "Verif.Props.C127_save",
    "Verif.Props.C127_required",
    "Verif.Props.C127_history",
    "Verif.Props.C127_last_saver",
    "Verif.Props.C127_taking_turns"
   ],
   "note": "Programs with different settings types share one settings file"
  },
  {
   "property": "C128",
   "status": "proved",
   "theorems": [
    "Verif.Props.C128_plain",
    "Verif.Props.C128_dotted",
    "Verif.Props.C128_extension",
    "Verif.Props.C128_elsewhere",
    "Verif.Props.C128_network",
    "Verif.Props.C128_file_layer",
    "Verif.Props.C128_dirs",
    "Verif.Props.C128_layer",
    "Verif.Props.C128_user_config",
    "Verif.Props.C128_separator",
    "Verif.Props.C128_same_code",
    "Verif.Props.C128_find_first",
    "Verif.Props.C128_find_last",
    "Verif.Props.C128_find_all",
    "Verif.Props.C128_index_overflow",
    "Verif.Props.C128_find_all_or_first",
    "Verif.Props.C128_join"
   ],
   "note": "On Windows the searches, file layers and directories keep the same rules over Windows paths"
  },
  {
   "property": "C129",
   "status": "proved",
   "theorems": [
    "Verif.Props.C129_values",
    "Verif.Props.C129_accepted",
    "Verif.Props.C129_restore",
    "Verif.Props.C129_copies",
    "Verif.Props.C129_rebuilt",
    "Verif.Props.C129_settings"
   ],
   "note": "What was read from a TOML file can always be written back: backups, copies and restoring"
  },
  {
   "property": "C130",
   "status": "proved",
   "theorems": [
    "Verif.Props.C130_left",
    "Verif.Props.C130_start_end",
    "Verif.Props.C130_history",
    "Verif.Props.C130_settled",
    "Verif.Props.C130_next",
    "Verif.Props.C130_defaults",
    "Verif.Props.C130_every_beginning",
    "Verif.Props.C130_wrong_for_ever",
    "Verif.Props.C130_toml"
   ],
   "note": "Starts that are killed, or run out of disk space"
  },
  {
   "property": "C131",
   "status": "proved",
   "theorems": [
    "Verif.Props.C131_passed",
    "Verif.Props.C131_checked",
    "Verif.Props.C131_inside",
    "Verif.Props.C131_absent",
    "Verif.Props.C131_config",
    "Verif.Props.C131_refused",
    "Verif.Props.C131_override",
    "Verif.Props.C131_no_panic",
    "Verif.Props.C131_kept",
    "Verif.Props.C131_lost"
   ],
   "note": "Validated settings stay valid"
  },
  {
   "property": "C132",
   "status": "proved",
   "theorems": [
    "Verif.Props.C132_origin",
    "Verif.Props.C132_exact",
    "Verif.Props.C132_only",
    "Verif.Props.C132_scalar",
    "Verif.Props.C132_shown",
    "Verif.Props.C132_quiet",
    "Verif.Props.C132_hidden",
    "Verif.Props.C132_anonymous",
    "Verif.Props.C132_layer",
    "Verif.Props.C132_attrs"
   ],
   "note": "Every error has a culprit; what it reveals"
  },
  {
   "property": "C133",
   "status": "proved",
   "theorems": [
    "Verif.Props.C133_float_text",
    "Verif.Props.C133_exact",
    "Verif.Props.C133_typed",
    "Verif.Props.C133_env"
   ],
   "note": "A number in a file and the same number in a variable mean the same \u2014 mostly"
  },
  {
   "property": "C134",
   "status": "proved",
   "theorems": [
    "Verif.Props.C134_first",
    "Verif.Props.C134_last",
    "Verif.Props.C134_all",
    "Verif.Props.C134_written",
    "Verif.Props.C134_decides",
    "Verif.Props.C134_takeover"
   ],
   "note": "Which files on the search path decide, and what a file that takes over changes"
  },
  {
   "property": "C135",
   "status": "proved",
   "theorems": [
    "Verif.Props.C135_exact",
    "Verif.Props.C135_compare",
    "Verif.Props.C135_read",
    "Verif.Props.C135_order",
    "Verif.Props.C135_program",
    "Verif.Props.C135_made"
   ],
   "note": "How deep a configuration may be nested"
  },
  {
   "property": "C136",
   "status": "proved",
   "theorems": [
    "Verif.Props.C136_find_first",
    "Verif.Props.C136_find_last",
    "Verif.Props.C136_find_all",
    "Verif.Props.C136_find_all_or_first",
    "Verif.Props.C136_bound",
    "Verif.Props.C136_build",
    "Verif.Props.C136_build_bound",
    "Verif.Props.C136_write",
    "Verif.Props.C136_start",
    "Verif.Props.C136_start_only",
    "Verif.Props.C136_start_quiet"
   ],
   "note": "What is asked of the operating system, and how often"
  },
  {
   "property": "C137",
   "status": "proved",
   "theorems": [
    "Verif.Props.C137_given",
    "Verif.Props.C137_add",
    "Verif.Props.C137_start",
    "Verif.Props.C137_none",
    "Verif.Props.C137_takeover",
    "Verif.Props.C137_shadow"
   ],
   "note": "What enabling or disabling a file format changes"
  },
  {
   "property": "C138",
   "status": "proved",
   "theorems": [
    "Verif.Props.C138_registered",
    "Verif.Props.C138_start"
   ],
   "note": "A configuration can be moved: neither paths nor layer names matter"
  },
  {
   "property": "C139",
   "status": "proved",
   "theorems": [
    "Verif.Props.C139_safe",
    "Verif.Props.C139_type",
    "Verif.Props.C139_start",
    "Verif.Props.C139_file",
    "Verif.Props.C139_field",
    "Verif.Props.C139_env",
    "Verif.Props.C139_env_only",
    "Verif.Props.C139_readable"
   ],
   "note": "The worst a configuration can do: which settings types it can crash"
  },
  {
   "property": "C140",
   "status": "proved",
   "theorems": [
    "Verif.Props.C140_say",
    "Verif.Props.C140_only",
    "Verif.Props.C140_memory",
    "Verif.Props.C140_file",
    "Verif.Props.C140_gaps"
   ],
   "note": "Which settings can be said at all"
  },
  {
   "property": "C141",
   "status": "proved",
   "theorems": [
    "Verif.Props.C141_text",
    "Verif.Props.C141_reach",
    "Verif.Props.C141_alone",
    "Verif.Props.C141_never"
   ],
   "note": "Which settings the environment can bring about"
  },
  {
   "property": "C142",
   "status": "proved",
   "theorems": [
    "Verif.Props.C142_top",
    "Verif.Props.C142_only",
    "Verif.Props.C142_file",
    "Verif.Props.C142_keeps"
   ],
   "note": "Which settings a layer on top can bring about"
  },
  {
   "property": "C143",
   "status": "proved",
   "theorems": [
    "Verif.Props.C143_flatten",
    "Verif.Props.C143_same",
    "Verif.Props.C143_swallows",
    "Verif.Props.C143_sections",
    "Verif.Props.C143_env",
    "Verif.Props.C143_order"
   ],
   "note": "Optional flattened sections"
  },
  {
   "property": "C144",
   "status": "proved",
   "theorems": [
    "Verif.Props.C144_orders",
    "Verif.Props.C144_order",
    "Verif.Props.C144_layers",
    "Verif.Props.C144_tag",
    "Verif.Props.C144_view",
    "Verif.Props.C144_env"
   ],
   "note": "A flattened enum depends on the order of the hash map when two layers name different variants"
  },
  {
   "property": "C145",
   "status": "proved",
   "theorems": [
    "Verif.Props.C145_read",
    "Verif.Props.C145_saves",
    "Verif.Props.C145_save",
    "Verif.Props.C145_again",
    "Verif.Props.C145_history",
    "Verif.Props.C145_last_saver",
    "Verif.Props.C145_lost",
    "Verif.Props.C145_toml",
    "Verif.Props.C145_files",
    "Verif.Props.C145_env"
   ],
   "note": "A catch-all field keeps the keys a program does not know"
  },
  {
   "property": "C146",
   "status": "proved",
   "theorems": [
    "Verif.Props.C146_two",
    "Verif.Props.C146_whatever",
    "Verif.Props.C146_files",
    "Verif.Props.C146_only",
    "Verif.Props.C146_enough"
   ],
   "note": "Two layers on top can make every setting whatever can be said"
  },
  {
   "property": "C147",
   "status": "proved",
   "theorems": [
    "Verif.Props.C147_top",
    "Verif.Props.C147_saved",
    "Verif.Props.C147_under",
    "Verif.Props.C147_else"
   ],
   "note": "When saved settings are what is read"
  },
  {
   "property": "C148",
   "status": "proved",
   "theorems": [
    "Verif.Props.C148_top",
    "Verif.Props.C148_saved",
    "Verif.Props.C148_under",
    "Verif.Props.C148_else"
   ],
   "note": "Unset settings stay unset where None can be written; removed map entries never stay removed"
  }
 ]
}