{"claims": [
{"property": "C01", "status": "proved", "theorems": ["Verif.C01_vlq_round_trip"], "note": ""},
{"property": "C02", "status": "proved", "theorems": ["Verif.C02_uleb128_round_trip"], "note": ""},
{"property": "C03", "status": "proved", "theorems": ["Verif.C03_leb128_round_trip"], "note": ""},
{"property": "C04", "status": "proved", "theorems": ["Verif.C04_compact_round_trip"], "note": ""},
{"property": "C05", "status": "proved", "theorems": ["Verif.C05_encoding_delimited", "Verif.C05_prefix_free"], "note": ""},
{"property": "C06", "status": "partial", "theorems": ["Verif.C06_minimal_partial", "Verif.C06_leb128_minimal_refuted", "Verif.C06_leb128_minimal_partial"], "note": "Minimality holds for VLQ, ULEB128 and compact indices; it is false for LEB128 at -2^(7k-1) (refuted with a witness) and proved elsewhere."},
{"property": "C07", "status": "proved", "theorems": ["Verif.C07_decode_delimited", "Verif.C07_decode_truncated", "Verif.C07_decode_exhaustive"], "note": ""},
{"property": "C08", "status": "proved", "theorems": ["Verif.C08_unsigned_rejects_negative", "Verif.C08_field_rejects_negative"], "note": ""},
{"property": "C09", "status": "proved", "theorems": ["Verif.C09_max_bytes_dump", "Verif.C09_max_bytes_bound", "Verif.C09_max_bytes_not_enforced_on_load"], "note": "max_bytes is enforced when dumping only; loading provably ignores it."},
{"property": "C10", "status": "proved", "theorems": ["Verif.C10_write_read", "Verif.C10_read_write", "Verif.C10_field_round_trip"], "note": ""},
{"property": "C100", "status": "proved", "theorems": ["Verif.C100_encode", "Verif.C100_decode_marked", "Verif.C100_decode_unmarked", "Verif.C100_codec_round_trip", "Verif.C100_string_dump", "Verif.C100_string_load", "Verif.C100_string_round_trip", "Verif.C100_stringz_dump", "Verif.C100_stringz_load", "Verif.C100_stringz_round_trip", "Verif.C100_stringz_utf8", "Verif.C100_stringz_needs_mark", "Verif.C100_same_text_refuted", "Verif.C100_resave_refuted", "Verif.C100_size", "Verif.C100_const_size", "Verif.C100_pad_byte", "Verif.C100_stringz_lossless", "Verif.C100_string_lossless"], "note": "C100_stringz_lossless and C100_string_lossless plug these fields into C26 (for fields without pad_byte). The _refuted theorems are the last two sentences of the statement."},
{"property": "C101", "status": "partial", "theorems": ["Verif.C101_same_contents", "Verif.C101_same_shape", "Verif.C101_apart", "Verif.C101_same_behaviour", "Verif.C101_separate", "Verif.C101_unaffected", "Verif.C101_shallow_refuted"], "note": "Proved for deep copies and pickles (classes of the object model: no computed fields). Refuted for copy.copy: a shallow copy shares the dictionary of values, so setting a field of the copy sets it in the original. That a shallow copy shares everything is modelled by giving out the same reference."},
{"property": "C102", "status": "partial", "theorems": ["Verif.C102_deterministic", "Verif.C102_validated", "Verif.C102_presence", "Verif.C102_calls", "Verif.C102_absent_refuted", "Verif.C102_once_refuted"], "note": "Proved for arbitrary stateful callables: every validator was passed with the values of the result, present is asked with exactly the fields before it, the exact sequence of calls (the latter for structs whose fields contain no fields). Refuted: validate= functions are called twice per load, so one with a memory can reject every load; validators of absent fields are called with NOT_PRESENT although the documentation says they get the deserialized value. Default factories and custom field types stay functions."},
{"property": "C103", "status": "partial", "theorems": ["Verif.C103_not_nullable", "Verif.C103_null_bytes", "Verif.C103_zeroes", "Verif.C103_alone", "Verif.C103_in_struct", "Verif.C103_struct_refuses", "Verif.C103_same_error_refuted"], "note": "Proved for every kind of field, except that the error is not the same in a struct as alone: refuted. The conversion of Python's RecursionError into BuggyFieldImplementationError is modelled as the result of the recursion."},
{"property": "C104", "status": "partial", "theorems": ["Verif.C104_to_dict", "Verif.C104_structs", "Verif.C104_equal", "Verif.C104_equals_dict", "Verif.C104_optional_to_dict", "Verif.C104_optional_structs", "Verif.C104_optional_equal", "Verif.C104_optional_equals_dict", "Verif.C104_counted_array_refuted", "Verif.C104_default_refuted", "Verif.C104_dict_refuted", "Verif.C104_nan_refuted", "Verif.C104_discard_refuted", "Verif.C104_absent_refuted"], "note": "Proved for the schemas of C26, with and without optional, nullable and discarded fields and unions, under the stated conditions; each condition is shown to be needed by a counterexample."},
{"property": "C105", "status": "partial", "theorems": ["Verif.C105_struct", "Verif.C105_field", "Verif.C105_bytes", "Verif.C105_count_refuted"], "note": "Proved for classes whose arrays have elements that take at least one byte or a fixed count of elements. Refuted for arrays of possibly empty elements counted by a field. Work is measured in calls of the stream's methods; calls of user code (load deciders, validators, custom fields) count as one or not at all."},
{"property": "C106", "status": "partial", "theorems": ["Verif.C106_read_back", "Verif.C106_other_slots", "Verif.C106_get_size", "Verif.C106_guessed_refuted"], "note": "Proved for the schemas of C26 with optional and nullable fields, unions, nested and recursive classes. Refuted if the slot size is taken from get_size() and that was guessed from a default."},
{"property": "C107", "status": "partial", "theorems": ["Verif.C107_same_classes", "Verif.C107_exchange", "Verif.C107_undeclared_refuted", "Verif.C107_components_refuted", "Verif.C107_floats_refuted"], "note": "The equality of classes is proved for all programs whose numbers have a declared order; the exchange for the schemas of C26 with optional fields. Refuted where the order is not declared or declared only in Meta for floats and array components. The codecs utf-16/utf-32 (native order after a mark) are in C100, local times in C88."},
{"property": "C108", "status": "partial", "theorems": ["Verif.C108_loaded", "Verif.C108_fresh", "Verif.C108_written", "Verif.C108_stale_refused", "Verif.C108_discarded_written", "Verif.C108_detects", "Verif.C108_partial_refuted"], "note": "Proved for from_stream and to_stream. Refuted for partial_load and get_field, which run no validator methods."},
{"property": "C109", "status": "partial", "theorems": ["Verif.C109_deeper_stack", "Verif.C109_unlimited", "Verif.C109_recursive_refuted"], "note": "Proved for classes made by class statements, each name defined once. Calls that never call from_stream again (reading, ==, user callables, null representations) are not counted. Refuted for classes that contain themselves."},
{"property": "C11", "status": "proved", "theorems": ["Verif.C11_write_int_range", "Verif.C11_field_range"], "note": ""},
{"property": "C110", "status": "partial", "theorems": ["Verif.C110_new_reads_old", "Verif.C110_old_reads_new", "Verif.C110_same_dump", "Verif.C110_accepts", "Verif.C110_validator_refuted"], "note": "C110_same_dump is about dumps that both succeed, and fields of the old version that do not look at later fields. Refuted without the condition that the checks accept absent new fields: validate_contents hands NOT_PRESENT to the validators of a new field when old data is loaded."},
{"property": "C111", "status": "partial", "theorems": ["Verif.C111_last_field", "Verif.C111_up_to_missing", "Verif.C111_takes_a_byte", "Verif.C111_plain_last_field", "Verif.C111_plain_up_to_missing", "Verif.C111_absent_refuted", "Verif.C111_empty_field_refuted", "Verif.C111_size_field_refuted"], "note": "The values must be lossless (as in C26). In the plain versions a nested struct, also one in a list, is a dictionary or an instance. Refuted: partial_dump writes fields that present leaves out, which partial_load skips; a missing field of size 0 is loaded although it was not written; a field whose size is another field makes partial_dump raise."},
{"property": "C112", "status": "partial", "theorems": ["Verif.C112_open", "Verif.C112_seal", "Verif.C112_open_dump", "Verif.C112_seal_dump", "Verif.C112_to_end_refuted"], "note": "The dump theorems need that Inner(**inner.to_dict()) can be dumped like inner (C93), since that is what the nested field does. Refuted for inner classes that read to the end of the stream."},
{"property": "C113", "status": "partial", "theorems": ["Verif.C113_journal", "Verif.C113_journal_bytes", "Verif.C113_plain_journal", "Verif.C113_undumpable_refuted"], "note": "Proved for the schemas of C26 in which no field reads to the end of the stream. With to_stream the records must be such that dumping them to memory succeeds (refuted otherwise); with write(to_bytes()) any records."},
{"property": "C114", "status": "partial", "theorems": ["Verif.C114_packets", "Verif.C114_all_arrived", "Verif.C114_any_packets", "Verif.C114_plain_packets", "Verif.C114_read_to_end_refuted"], "note": "Proved for the schemas of C26 in which no field reads to the end of the stream (refuted otherwise), and messages that are not empty byte strings."},
{"property": "C115", "status": "partial", "theorems": ["Verif.C115_there_and_back", "Verif.C115_plain", "Verif.C115_nested", "Verif.C115_padding_refuted"], "note": "Proved for pairs of schemas of C26, with nested structs at any depth (C115_nested: dictionaries given for nested structs must have all fields); for values without dictionaries inside, the first class may have present callables and validators (C115_there_and_back). Refuted for padded strings."},
{"property": "C116", "status": "proved", "theorems": ["Verif.C116_dispatch", "Verif.C116_unknown_tag"], "note": "For derived classes that are schemas of C26 (optional, nullable, computed, discarded fields, unions). The tag must be readable by itself (the conditions of C24, which are needed: C24_get_field_agrees_refuted), kept, and not a list or dictionary of structs."},
{"property": "C117", "status": "partial", "theorems": ["Verif.C117_pure", "Verif.C117_pure_contents", "Verif.C117_dump", "Verif.C117_load", "Verif.C117_own_validators", "Verif.C117_method_validators_partial", "Verif.C117_method_validators_refuted", "Verif.C117_round_trip"], "note": "C117_method_validators_partial: when validator methods change only fields that are checked later and do not look at those, every one of them accepts what is written. Without this it is false (C117_method_validators_refuted). C117_own_validators is about the fields validate_contents checks: all fields of an assigned class, none of an annotated one (C77). The struct on which to_stream or from_stream is called has such validators; those inside it have validators that only look."},
{"property": "C118", "status": "partial", "theorems": ["Verif.C118_read", "Verif.C118_edit", "Verif.C118_extended_refuted"], "note": "Proved for programs whose known classes are those the chunks were written with. For a class that has been extended by one byte it is false (C118_extended_refuted, from the defect of C22). Classes as in C26 (optional, nullable, computed, discarded fields, unions); tags are numbers, text or bytes."},
{"property": "C119", "status": "partial", "theorems": ["Verif.C119_deeper_stack", "Verif.C119_unlimited", "Verif.C119_no_recursion_error", "Verif.C119_reload", "Verif.C119_reload_no_recursion_error", "Verif.C119_text_only_refuted"], "note": "Proved for classes made by class statements, each name defined once, whose fields supply no struct instances themselves; values without iterators. Calls that never call to_stream or recursive_to_dicts again are not counted. A bound by the class statements alone is refuted. The no_recursion_error theorems assume that the callables of the user do not run out of stack themselves. C119_reload: built-in fields only, no initial values."},
{"property": "C12", "status": "proved", "theorems": ["Verif.C12_endian_reverse", "Verif.C12_endian_reverse_read"], "note": ""},
{"property": "C120", "status": "partial", "theorems": ["Verif.C120_round_trip", "Verif.C120_normal", "Verif.C120_shape", "Verif.C120_order", "Verif.C120_order_suffix", "Verif.C120_order_refuted", "Verif.C120_any_tuple_refuted", "Verif.C120_prerelease_refuted", "Verif.C120_dev_refuted"], "note": "Everything that holds of the code is proved; the forms of pre-releases and development releases that PEP 440 prescribes, and the comparison of a release with a pre-release, are refuted. The limit of 4300 digits that newer versions of Python put on int() is not modelled."},
{"property": "C121", "status": "proved", "theorems": ["Verif.C121_append", "Verif.C121_torn", "Verif.C121_dumped", "Verif.C121_rewritten", "Verif.C121_counted_refuted"], "note": "The fields before the array, its elements and the nested classes must know where they end (SelfLimited, sizes not negative) and must not look ahead, as in C63; the validators of the class have to accept the longer list. C121_counted_refuted shows that the restriction to arrays without a count is needed."},
{"property": "C122", "status": "proved", "theorems": ["Verif.C122_group", "Verif.C122_inline", "Verif.C122_dump", "Verif.C122_dump_inline", "Verif.C122_reference_refuted"], "note": "The records of the fields are the same in both classes up to position, which C123 shows not to matter (the theorems are applied to bare classes). Dumping needs the nested struct to be rebuildable from its dictionary (Rebuilds, as in C112) and all fields to be set; C122_dump_inline also that the fields of the group are always present and not discarded. C122_reference_refuted shows that references into or out of the group break it."},
{"property": "C123", "status": "partial", "theorems": ["Verif.C123_load", "Verif.C123_dump", "Verif.C123_partial", "Verif.C123_inspect", "Verif.C123_split", "Verif.C123_get_field_partial", "Verif.C123_get_field_refuted"], "note": "Refuted for get_field, which goes to the recorded offset, and that depends on how the class was declared (C123_get_field_refuted, with classes as they are declared); it holds when the offsets are the same (C123_get_field_partial)."},
{"property": "C124", "status": "proved", "theorems": ["Verif.C124_dump", "Verif.C124_load", "Verif.C124_files", "Verif.C124_partial", "Verif.C124_use", "Verif.C124_measure", "Verif.C124_get_field", "Verif.C124_declared", "Verif.C124_reference_refuted"], "note": "The renamed class is the outermost one; fields of nested classes keep their names (a nested struct loads and dumps like a stand-alone one, C42). New names that hide an attribute of Struct, e.g. a field called to_dict, are outside the model. C124_reference_refuted shows that references must be renamed, too."},
{"property": "C125", "status": "proved", "theorems": ["Verif.C125_list", "Verif.C125_unlist", "Verif.C125_dump", "Verif.C125_dump_unlist", "Verif.C125_reference_refuted"], "note": "The element type has a declared size or is a variable-length integer; it is always there, is not null, computed or discarded. Validators of the new class may reject what was loaded (LoadsUnlessRejected). For dumping all fields are set, to values other than containers. Traces of the declaration (offset, index) are left out, which does not matter by C123. C125_reference_refuted shows that other fields must not refer to the single ones."},
{"property": "C126", "status": "proved", "theorems": ["Verif.C126_split", "Verif.C126_join", "Verif.C126_dump", "Verif.C126_dump_join", "Verif.C126_open_refuted"], "note": "The arrays have no halt check, are always there and not null or discarded; their own validators accept the lists (for dumping they have no declared size). Validators of the new class may reject what was loaded (LoadsUnlessRejected). Elements and other fields do not refer to the arrays. Traces of the declaration are left out (C123). C126_open_refuted shows that the count is needed."},
{"property": "C127", "status": "proved", "theorems": ["Verif.C127_dump", "Verif.C127_load", "Verif.C127_size", "Verif.C127_reference_refuted"], "note": "User-defined field types and dump deciders look fields up by name only (ByName, as for C99); the validators of the second class accept the values (dumping) or may reject them (LoadsUnlessRejected). Traces of the declaration are left out (C123), as index and offset differ. C127_reference_refuted shows that references matter for loading."},
{"property": "C128", "status": "proved", "theorems": ["Verif.C128_dump", "Verif.C128_load", "Verif.C128_declared", "Verif.C128_null_refuted"], "note": "Numbers are those of a declared size without null_value; C128_null_refuted shows why. The validators of the second class accept the values (dumping) or may reject them (LoadsUnlessRejected)."},
{"property": "C129", "status": "proved", "theorems": ["Verif.C129_dump", "Verif.C129_dumpable", "Verif.C129_load", "Verif.C129_negative_refuted"], "note": "Integers are those of a declared size without null_value that are not discarded. The validators of the second class may reject the values (LoadsUnlessRejected). C129_negative_refuted: numbers only one of the two can hold."},
{"property": "C13", "status": "proved", "theorems": ["Verif.C13_short_read"], "note": ""},
{"property": "C130", "status": "proved", "theorems": ["Verif.C130_dump", "Verif.C130_load", "Verif.C130_ascii_utf8", "Verif.C130_ascii_latin1", "Verif.C130_ascii_charmap", "Verif.C130_latin1_refuted"], "note": "Texts are String and StringZ fields without null_value. Encodings are the character-wise ones of Model/Codec. The validators of the second class may reject the values (Valid, LoadsUnlessRejected). C130_latin1_refuted: an encoding with more characters but other bytes."},
{"property": "C14", "status": "proved", "theorems": ["Verif.C14_field_dump_all_or_nothing"], "note": ""},
{"property": "C15", "status": "proved", "theorems": ["Verif.C15_declared_size_written", "Verif.C15_default_null_size", "Verif.C15_has_fixed_size", "Verif.C15_null_bytes_size_refuted", "Verif.C15_bad_size_reference"], "note": ""},
{"property": "C16", "status": "proved", "theorems": ["Verif.C16_absent_loads_nothing", "Verif.C16_absent_dumps_nothing", "Verif.C16_absent_no_footprint"], "note": ""},
{"property": "C17", "status": "proved", "theorems": ["Verif.C17_none_round_trip", "Verif.C17_same_bytes", "Verif.C17_same_default", "Verif.C17_same_value", "Verif.C17_undetermined_null", "Verif.C17_null_by_value"], "note": ""},
{"property": "C18", "status": "proved", "theorems": ["Verif.C18_const_enforced_on_load", "Verif.C18_other_bytes_rejected"], "note": ""},
{"property": "C19", "status": "partial", "theorems": ["Verif.C19_const_always_dumped_refuted", "Verif.C19_const_dumped_partial"], "note": "False as stated: a value passed to the constructor for a const field is dumped instead of the constant. Proved when no value was passed."},
{"property": "C20", "status": "proved", "theorems": ["Verif.C20_load_validates", "Verif.C20_dump_validates", "Verif.C20_assign_validates", "Verif.C20_struct_dump_validates", "Verif.C20_struct_dump_invalid", "Verif.C20_struct_load_validates"], "note": ""},
{"property": "C21", "status": "proved", "theorems": ["Verif.C21_from_bytes_exact", "Verif.C21_from_bytes_extraneous"], "note": ""},
{"property": "C22", "status": "partial", "theorems": ["Verif.C22_struct_from_bytes_exact_refuted", "Verif.C22_struct_from_bytes_exact_partial"], "note": "False as stated: one trailing byte is accepted. Exact behaviour proved."},
{"property": "C23", "status": "proved", "theorems": ["Verif.C23_peek_bytes", "Verif.C23_get_field_position"], "note": ""},
{"property": "C24", "status": "partial", "theorems": ["Verif.C24_get_field_agrees_refuted", "Verif.C24_get_field_no_offset_partial", "Verif.C24_get_field_discarded", "Verif.C24_get_field_offset_partial", "Verif.C24_get_field_static_partial"], "note": "False as stated: get_field loads a field at a static offset without the values of the other fields. Proved for fields without static offset (if no field looks at a discarded one) and for self-contained fields at a correct static offset; C24_get_field_static_partial gives conditions that can be read off the class declaration."},
{"property": "C25", "status": "partial", "theorems": ["Verif.C25_offsets_root", "Verif.C25_offset_none_refuted", "Verif.C25_annotated_subclass_refuted", "Verif.C25_offsets_partial", "Verif.C25_bytes_at_offset"], "note": "False as stated for subclasses of a struct with an unsized field that has a default, and for annotated (PEP 526) subclasses. Holds for every class without a base and for every chain of assigned classes in which no size is guessed from a default."},
{"property": "C26", "status": "partial", "theorems": ["Verif.C26_round_trip_partial", "Verif.C26_plain_round_trip", "Verif.C26_optional_round_trip", "Verif.C26_null_integer", "Verif.C26_null_zeros", "Verif.C26_scalars", "Verif.C26_nul_refuted", "Verif.C26_padding_refuted", "Verif.C26_null_refuted", "Verif.C26_array_of_bytes_refuted", "Verif.C26_const_refuted"], "note": "Refuted for all dumpable values: NULs in null-terminated strings, padded strings, values that look like the null value, arrays given as bytes, constants overridden in the constructor. Holds for every instance of classes (also recursive) of always-present fields, fields left out depending on earlier plain fields, fields that may be None, unions decided by earlier plain fields, discarded magic numbers and padding, computed plain fields, and checks that look at plain fields, whose values match their fields; and in general (also other unions, user-defined types) for values each field can represent without loss."},
{"property": "C27", "status": "partial", "theorems": ["Verif.C27_load_dump_partial", "Verif.C27_bytes_partial", "Verif.C27_injective_partial", "Verif.C27_text_uuid_refuted", "Verif.C27_prefixed_uuid_refuted", "Verif.C27_spelled_uuid_refuted", "Verif.C27_varint_refuted", "Verif.C27_signalling_nan_refuted", "Verif.C27_sized_stringz_refuted", "Verif.C27_discard_refuted", "Verif.C27_null_safe", "Verif.C27_null_zero_refuted", "Verif.C27_union_validator_refuted"], "note": "Proved for every class, recursive ones included, with conditional fields (depending on earlier fields) and nullable fields, built from fixed-size integers, bytes, strings in every supported encoding (not only single-byte ones), null-terminated strings, binary UUIDs, doubles, timestamps in seconds, arrays, nested structs and unions decided by earlier fields, with fixed sizes or sizes and counts given by earlier unsigned fields; discarded fields are constants. False for UUIDs stored as text (upper-case digits come back in lower case): refuted. Also refuted beyond the property: varints, single-precision NaNs, sized StringZ, discarded fields that are not constants, floats whose null value is 0.0, validators of union choices."},
{"property": "C28", "status": "proved", "theorems": ["Verif.C28_dump_is_concatenation"], "note": ""},
{"property": "C29", "status": "proved", "theorems": ["Verif.C29_failing_dump_prefix"], "note": ""},
{"property": "C30", "status": "partial", "theorems": ["Verif.C30_guessed_refuted", "Verif.C30_absent_refuted", "Verif.C30_get_size_partial"], "note": "Refuted in general: a size guessed from a default, absent fields, null bytes of another length. Partial: holds when none of these occurs."},
{"property": "C31", "status": "partial", "theorems": ["Verif.C31_absent_refuted", "Verif.C31_null_refuted", "Verif.C31_discard_refuted", "Verif.C31_len_partial"], "note": "Refuted in general: absent fields are counted, null bytes of another length, discarded unsized fields. Partial: holds for structs of fields with a declared size and of unsized fields that do not look at other fields."},
{"property": "C32", "status": "proved", "theorems": ["Verif.C32_value_precedence", "Verif.C32_missing_value", "Verif.C32_struct_dumps_chosen_value", "Verif.C32_struct_missing_value"], "note": ""},
{"property": "C33", "status": "partial", "theorems": ["Verif.C33_factory_default_refuted", "Verif.C33_factory_never_used", "Verif.C33_factory_default_partial"], "note": "False as stated: compute_value_for_dump never calls the factory of a field without default."},
{"property": "C34", "status": "proved", "theorems": ["Verif.C34_immutable_assignment", "Verif.C34_history", "Verif.C34_computed_value"], "note": ""},
{"property": "C35", "status": "proved", "theorems": ["Verif.C35_history", "Verif.C35_reads", "Verif.C35_unknown_names"], "note": ""},
{"property": "C36", "status": "proved", "theorems": ["Verif.C36_constructor"], "note": ""},
{"property": "C37", "status": "proved", "theorems": ["Verif.C37_to_dict_keys", "Verif.C37_discard_load"], "note": ""},
{"property": "C38", "status": "partial", "theorems": ["Verif.C38_explicit_value_dumped_refuted", "Verif.C38_explicit_value_dumped_partial"], "note": "False for fields marked discard (their value is dropped before dumping); proved for the others."},
{"property": "C39", "status": "partial", "theorems": ["Verif.C39_dump_count_refuted", "Verif.C39_dump_count_partial", "Verif.C39_dump_wrong_list", "Verif.C39_dump_wrong_iterator_partial", "Verif.C39_load_count", "Verif.C39_bad_count_reference"], "note": "False for negative counts: an iterator of any length is dumped. Proved for counts of at least 0."},
{"property": "C40", "status": "proved", "theorems": ["Verif.C40_array_round_trip", "Verif.C40_array_round_trip_unbounded"], "note": ""},
{"property": "C41", "status": "proved", "theorems": ["Verif.C41_terminates", "Verif.C41_counted_terminates", "Verif.C41_diverges", "Verif.C41_never_present_diverges"], "note": ""},
{"property": "C42", "status": "proved", "theorems": ["Verif.C42_nested_dump_instance", "Verif.C42_nested_dump_dict", "Verif.C42_nested_dump_sized", "Verif.C42_nested_load", "Verif.C42_nested_load_only", "Verif.C42_nested_load_error"], "note": ""},
{"property": "C43", "status": "proved", "theorems": ["Verif.C43_union_dump_field", "Verif.C43_union_dump_struct", "Verif.C43_union_load_struct", "Verif.C43_union_load_field", "Verif.C43_union_illegal_choice"], "note": ""},
{"property": "C44", "status": "partial", "theorems": ["Verif.C44_union_validation_refuted", "Verif.C44_union_validation_partial"], "note": "False as stated: a union loads field choices without running their validators."},
{"property": "C45", "status": "proved", "theorems": ["Verif.C45_stringz_round_trip", "Verif.C45_embedded_nul"], "note": ""},
{"property": "C46", "status": "proved", "theorems": ["Verif.C46_terminator_required", "Verif.C46_missing_terminator_raises", "Verif.C46_never_over_reads"], "note": ""},
{"property": "C47", "status": "partial", "theorems": ["Verif.C47_default_does_not_change_loading_refuted", "Verif.C47_declared_size_partial", "Verif.C47_other_fields_partial"], "note": "False as stated: an unsized StringZ with a default only loads strings up to the length of its default. Proved for fields with a declared size and for fields that do not consult their expected size."},
{"property": "C48", "status": "partial", "theorems": ["Verif.C48_padding_keeps_alignment_refuted", "Verif.C48_padded_stringz_partial"], "note": "False as stated: loading stops at the terminator and leaves the padding in the stream."},
{"property": "C49", "status": "proved", "theorems": ["Verif.C49_string_dump", "Verif.C49_stringz_dump", "Verif.C49_string_load", "Verif.C49_string_round_trip"], "note": ""},
{"property": "C50", "status": "proved", "theorems": ["Verif.C50_uuid_round_trip", "Verif.C50_binary_formats", "Verif.C50_binary_is_big_endian", "Verif.C50_text_formats", "Verif.C50_binary_load_dump", "Verif.C50_text_load"], "note": ""},
{"property": "C51", "status": "proved", "theorems": ["Verif.C51_codec_round_trip", "Verif.C51_codec_strict", "Verif.C51_encodable", "Verif.C51_code_page", "Verif.C51_code_page_round_trip", "Verif.C51_code_page_strict_refuted"], "note": "Strictness is for code pages without duplicates; C51_code_page_strict_refuted shows what happens in the few that have them (cp875, cp1006, mac_farsi)."},
{"property": "C52", "status": "proved", "theorems": ["Verif.C52_load_dump", "Verif.C52_load_value", "Verif.C52_dump_load", "Verif.C52_dump_nearest", "Verif.C52_dump_ties_to_even", "Verif.C52_out_of_range", "Verif.C52_dump_nan"], "note": "All three formats, both byte orders, every bit pattern; the real value of a float is a rational computed from its bits in Spec/Float. Values too large after rounding raise OverflowError (C53)."},
{"property": "C53", "status": "partial", "theorems": ["Verif.C53_range_errors_are_serialization_errors_refuted", "Verif.C53_unsuitable_values_partial"], "note": "False as stated: an out-of-range finite float raises OverflowError from struct.pack, uncaught. What holds: integers too large for a float and non-numbers raise SerializationError."},
{"property": "C54", "status": "partial", "theorems": ["Verif.C54_load_dump_partial", "Verif.C54_dump_load_partial", "Verif.C54_dump_truncates", "Verif.C54_load_out_of_range", "Verif.C54_first_day_refuted"], "note": "Local time zone taken to be UTC for naive datetimes (C88 has every zone). Refuted for naive datetimes in the first day of the year 1, where CPython raises ValueError; proved for all others, and for all aware ones."},
{"property": "C55", "status": "partial", "theorems": ["Verif.C55_subsecond_round_trip_refuted", "Verif.C55_load_exact_dump_off_by_one_partial", "Verif.C55_whole_seconds_partial", "Verif.C55_exact_windows_partial", "Verif.C55_after_2038_refuted"], "note": "False as stated: 1001 ms is dumped as 1000 ms. What holds: loading is exact to the microsecond within 2^33 s of the epoch, the dumped integer is off by at most one towards the epoch, and whole seconds round-trip exactly, and so do all integers in windows between powers of two (e.g. ms from November 2004 to January 2038)."},
{"property": "C56", "status": "proved", "theorems": ["Verif.C56_byte_order", "Verif.C56_settings"], "note": "Integer and its sized subclasses, in any program of class declarations."},
{"property": "C57", "status": "partial", "theorems": ["Verif.C57_defaults_reach_every_field_refuted", "Verif.C57_floats_refuted", "Verif.C57_direct_fields_partial"], "note": "False as stated: components of arrays and float fields are not reached. What holds: integer fields assigned in the class body."},
{"property": "C58", "status": "proved", "theorems": ["Verif.C58_layout", "Verif.C58_layout_root", "Verif.C58_redefinition_rejected", "Verif.C58_redefinition_error", "Verif.C58_multiple_inheritance_rejected", "Verif.C58_validators", "Verif.C58_parent_unchanged", "Verif.C58_unique_names", "Verif.C58_other_classes_unaffected", "Verif.C58_class_statement", "Verif.C58_reused_field_refuted"], "note": "Each class body creates its own field objects; assigning the field object of another class rebinds it and does alter that class (C58_reused_field_refuted). C58_other_classes_unaffected is over a heap of mutable, shared fields and validator lists."},
{"property": "C59", "status": "partial", "theorems": ["Verif.C59_equal_iff", "Verif.C59_symmetric", "Verif.C59_only_defined_values", "Verif.C59_dict_iff", "Verif.C59_undefined_iff", "Verif.C59_int_float", "Verif.C59_float_float", "Verif.C59_reflexive_partial", "Verif.C59_reflexive_refuted", "Verif.C59_unset_refuted", "Verif.C59_defined_values_nested_refuted", "Verif.C59_to_dict_refuted"], "note": "Symmetry, dependence on defined values and agreement with dicts hold for all structs whose values can be converted to dicts and that have a length (list(self) calls len(self)). Reflexivity fails (raises) when a nested struct lacks a required value, or a field without a fixed size has no value; it holds otherwise, NaN and iterators aside. Nested structs are compared with their defaults filled in. Ints and floats compare as exact rational numbers (C59_int_float, C59_float_float)."},
{"property": "C60", "status": "partial", "theorems": ["Verif.C60_prefix_refuted", "Verif.C60_discard_refuted", "Verif.C60_prefix_partial"], "note": "Refuted in general: partial_dump ignores computed values, present and discard, and hands the fields no all_fields. Partial: for structs whose fields do not look at other fields and whose values are plain, the partial dump is a prefix of the full dump."},
{"property": "C61", "status": "partial", "theorems": ["Verif.C61_partial_load_agrees_refuted", "Verif.C61_partial_load_last_partial", "Verif.C61_partial_load_truncated_partial", "Verif.C61_partial_load_complete_partial", "Verif.C61_last_discarded", "Verif.C61_truncated_discarded", "Verif.C61_complete_discarded", "Verif.C61_unknown_field"], "note": "False with discarded fields that others refer to (refuted); proved for all classes in which no field looks at a discarded one, in particular classes without discarded fields."},
{"property": "C62", "status": "partial", "theorems": ["Verif.C62_init_kwargs", "Verif.C62_layout_unchanged", "Verif.C62_only_overridden", "Verif.C62_layout_refuted", "Verif.C62_stringz_refuted"], "note": "Precedence, and that all fields are still read in order, hold for all classes. That nothing else changes, and that as many bytes are consumed, holds when no field looks at the overridden ones; refuted in general: a field without a size is read up to the size of the overriding value."},
{"property": "C63", "status": "partial", "theorems": ["Verif.C63_position", "Verif.C63_local_partial", "Verif.C63_local_to_end_partial", "Verif.C63_unpeeking", "Verif.C63_null_refuted", "Verif.C63_stringz_null_refuted", "Verif.C63_negative_size_reads_on"], "note": "The stream never moves backwards or past its end, for all fields and outcomes. Locality is refuted where a null representation may begin with the (shorter) bytes of a value; it holds for all other fields whose callables do not look ahead, with any trailing data."},
{"property": "C64", "status": "proved", "theorems": ["Verif.C64_to_dict_converted", "Verif.C64_plain_values_unchanged"], "note": ""},
{"property": "C65", "status": "partial", "theorems": ["Verif.C65_negative_size_over_reads_refuted", "Verif.C65_nonnegative_size_partial"], "note": "False as stated: a negative size reads to the end of the stream."},
{"property": "C66", "status": "partial", "theorems": ["Verif.C66_documented_partial", "Verif.C66_from_bytes_partial", "Verif.C66_conversions", "Verif.C66_refuted"], "note": "Refuted: UnicodeDecodeError, ValueError and OverflowError escape from String, StringZ, text UUIDs and timestamps. Apart from exactly these conversions (a parameter of the theorem, empty for classes without such fields), every failed load of a class whose references resolve raises a DeserializationError or a ValidationError."},
{"property": "C67", "status": "partial", "theorems": ["Verif.C67_terminates_partial", "Verif.C67_total_partial", "Verif.C67_self_first_refuted"], "note": "Refuted for a class that contains itself before anything has been read (and for arrays of empty elements, C41). Proved for all other tables of classes, mutually recursive ones included: recursion must come after a field that takes at least one byte, or go down a rank."},
{"property": "C68", "status": "partial", "theorems": ["Verif.C68_default_and_factory_rejected", "Verif.C68_pad_byte", "Verif.C68_const_is_default", "Verif.C68_const_with_default_refuted", "Verif.C68_const_with_factory_refuted", "Verif.C68_default", "Verif.C68_callable_default", "Verif.C68_const_sizes_itself", "Verif.C68_const_size_refuted", "Verif.C68_array_size", "Verif.C68_array_null_refuted", "Verif.C68_computes", "Verif.C68_const_not_computed"], "note": "Refuted in three places: a default or a factory takes precedence over the constant; only strings, byte strings and variable-length integers get the size of their constant, other fields raise AttributeError; a null element of another length breaks the size of an array. Everything else is proved for every constructor."},
{"property": "C69", "status": "proved", "theorems": ["Verif.C69_records", "Verif.C69_optional_records"], "note": "For plain classes (Spec.Schema) and for classes with conditional, nullable, computed and discarded fields, unions and checks (Spec.OptionalSchema), any number of structs, any surrounding bytes."},
{"property": "C70", "status": "proved", "theorems": ["Verif.C70_injective", "Verif.C70_optional_injective", "Verif.C70_alike_scalars", "Verif.C70_alike_lists"], "note": "For plain classes (Spec.Schema) and for classes with conditional, nullable, computed and discarded fields, unions and checks (Spec.OptionalSchema). Nested structs may leave a field to its default where the other gives the same value (Alike)."},
{"property": "C71", "status": "proved", "theorems": ["Verif.C71_locality", "Verif.C71_one_field", "Verif.C71_in_place", "Verif.C71_history"], "note": "For all classes, with callables, unions and user-defined fields, provided they do not depend on the changed fields."},
{"property": "C72", "status": "proved", "theorems": ["Verif.C72_extends", "Verif.C72_load_base", "Verif.C72_dump_base", "Verif.C72_base_dumps"], "note": "For all classes; validators, callables and references of the base must not look at fields of the subclass. If the instance of the subclass can be dumped, so can the instance of the base."},
{"property": "C73", "status": "partial", "theorems": ["Verif.C73_items", "Verif.C73_lookup_partial", "Verif.C73_contains_refuted", "Verif.C73_len", "Verif.C73_len_refuted", "Verif.C73_equality_refuted", "Verif.C73_equality_partial", "Verif.C73_setdefault_refuted", "Verif.C73_pop", "Verif.C73_popitem", "Verif.C73_clear", "Verif.C73_histories"], "note": "Iteration, lookup, dict(proxy), pop, popitem, clear and all histories of mutations are proved. Refuted: len() is the size in bytes, membership ignores whether the field is set (and may raise), setdefault never sets anything, and a proxy differs from every dict."},
{"property": "C74", "status": "partial", "theorems": ["Verif.C74_dump_partial", "Verif.C74_partial_dump_partial", "Verif.C74_load_partial", "Verif.C74_partial_load_partial", "Verif.C74_opaque", "Verif.C74_present_refuted", "Verif.C74_null_refuted"], "note": "Refuted: a dump first calls to_dict, which evaluates present with context None, so a field whose presence depends on the context is dropped even if it is set; null values are serialized with context None. Proved: no callable ever sees anything but the caller's context or None (all programs), and all see the caller's context when present does not depend on the context and null values are bytes or DEFAULT (for loads: and no struct is compared with const/null values)."},
{"property": "C75", "status": "partial", "theorems": ["Verif.C75_dump_ends", "Verif.C75_partial_dump_ends", "Verif.C75_to_dict_ends", "Verif.C75_eq_ends", "Verif.C75_default_refuted"], "note": "Proved for all classes whose self-supplied values (defaults, computed values, null values) are well-founded, without restriction on the stored values. Refuted without that hypothesis: x = Nested(Self, default={}) can be declared and instantiated, but dumping it or taking its length never ends."},
{"property": "C76", "status": "partial", "theorems": ["Verif.C76_documented_partial", "Verif.C76_to_bytes_partial", "Verif.C76_to_dict_partial", "Verif.C76_field_partial", "Verif.C76_total_partial", "Verif.C76_conversions", "Verif.C76_refuted", "Verif.C76_missing_nested_refuted", "Verif.C76_default_size_refuted", "Verif.C76_discarded_count_refuted", "Verif.C76_iterator_union_refuted", "Verif.C76_first_day_refuted"], "note": "Proved for all classes without user-defined field types whose references resolve, unions included (the value has the type of every choice that the decider may take), up to a set E of further exceptions (those of text encoding, narrow floats, and the user's callables). Refuted without E: text that cannot be encoded, floats out of range for their size, and a missing value that a compute function of a nested struct looks up (KeyError, although the same struct on its own raises MissingRequiredValueError); struct instances that an iterator yields to an array of unions (TypeError, although a list of them works)."},
{"property": "C77", "status": "partial", "theorems": ["Verif.C77_same_layout_partial", "Verif.C77_subclass_layout_partial", "Verif.C77_same_bytes_partial", "Verif.C77_subclass_same_bytes_partial", "Verif.C77_validators_refuted", "Verif.C77_validates_method_rejected", "Verif.C77_annotated_subclass_rejected", "Verif.C77_ambiguous_hint_rejected", "Verif.C77_mixed_rejected", "Verif.C77_union_hint_rejected", "Verif.C77_no_fields_rejected", "Verif.C77_defaults_refuted", "Verif.C77_bar_refuted"], "note": "Proved for classes without validator methods for single fields, with or without an assigned base class (with a base class, index and offset of the added fields differ, see C25). Refuted: validate_contents skips the validators of annotated fields; @validates methods raise KeyError at class creation; an annotated class cannot be subclassed with annotations; defaults given to field instances and struct classes, and Optional struct classes, are ignored; a union written with a bar (UInt8 | None) is silently not a field."},
{"property": "C78", "status": "partial", "theorems": ["Verif.C78_bytesio", "Verif.C78_failing_stream", "Verif.C78_failing_stream_partial_dump", "Verif.C78_whole_fields", "Verif.C78_calls", "Verif.C78_torn_dump_partial", "Verif.C78_crash_detected_partial", "Verif.C78_torn_dump_plain_partial", "Verif.C78_crash_detected_plain_partial", "Verif.C78_short_writes_refuted", "Verif.C78_read_to_end_refuted", "Verif.C78_torn_null_refuted"], "note": "The prefix property holds for all classes and all streams that take a prefix of each chunk and raise if it was not all. Torn dumps are detected for all classes built from the field types of the library, with optional and nullable fields and unions decided by earlier fields, in which no field reads to the end of the stream. Refuted: short writes without exception (raw streams) are ignored and leave holes; arrays that read to the end accept every prefix; a null representation that begins with a value can be torn into that value."},
{"property": "C79", "status": "partial", "theorems": ["Verif.C79_sentinel_round_trip", "Verif.C79_sentinel_removed", "Verif.C79_load_ends_at_sentinel", "Verif.C79_redump_refuted"], "note": "Proved for every component whose elements round-trip. The check that removes the sentinel (the documented use) makes loading and dumping asymmetric: dumping what was loaded does not write the sentinel (refuted)."},
{"property": "C80", "status": "proved", "theorems": ["Verif.C80_resave"], "note": "For OptionalSchema classes: every field type of the library; sizes, counts, conditions and the choices of unions determined by earlier fields; checks that look at plain fields; discarded fields without children (magic numbers, padding) and tags computed from other plain fields included; no custom field types and no validators on container fields."},
{"property": "C81", "status": "partial", "theorems": ["Verif.C81_names_the_field_partial", "Verif.C81_eof_is_true_partial", "Verif.C81_eof_offset_partial", "Verif.C81_uuid_offset_refuted", "Verif.C81_validation_refuted"], "note": "Proved for all classes of C66 whose callables raise no DeserializationErrors of their own. Refuted beyond: the offset of a UUID that is cut off is the end of the data, not the beginning of the field; a ValidationError names the innermost field, which may not be one of the struct that was loaded."},
{"property": "C82", "status": "proved", "theorems": ["Verif.C82_position", "Verif.C82_anywhere", "Verif.C82_tell_refuted"], "note": "C82_tell_refuted shows that the condition on callables is needed."},
{"property": "C83", "status": "proved", "theorems": ["Verif.C83_replace", "Verif.C83_overwrite", "Verif.C83_size_refuted"], "note": "C83_size_refuted shows that the condition that later fields do not refer to the field is needed."},
{"property": "C84", "status": "proved", "theorems": ["Verif.C84_snapshot", "Verif.C84_independent", "Verif.C84_contents", "Verif.C84_bytearray_refuted"], "note": "C84_bytearray_refuted: bytearrays are not copied. C84_contents is for classes without computed, conditional and factory-made fields."},
{"property": "C85", "status": "proved", "theorems": ["Verif.C85_separate", "Verif.C85_unaffected", "Verif.C85_mutable_default_refuted", "Verif.C85_mutable_not_present_refuted"], "note": "The two refutations show that the condition on defaults is needed: default=[] and not_present_value=[] are shared by all instances."},
{"property": "C86", "status": "partial", "theorems": ["Verif.C86_bytesio", "Verif.C86_well_behaved", "Verif.C86_failing_stream", "Verif.C86_failing_stream_partial_load", "Verif.C86_failing_stream_get_field", "Verif.C86_scripted", "Verif.C86_get_field_restores", "Verif.C86_short_reads_partial", "Verif.C86_short_reads_value", "Verif.C86_short_read_refuted"], "note": "The part about short reads is false in general (C86_short_read_refuted: the peek for a multi-byte null representation accepts a short read, so null is loaded as a number); C86_short_reads_partial is for classes in which null takes at most one byte."},
{"property": "C87", "status": "partial", "theorems": ["Verif.C87_asks_no_more_partial", "Verif.C87_field_asks_no_more_partial", "Verif.C87_short_none", "Verif.C87_null_refuted", "Verif.C87_unsized_array_refuted", "Verif.C87_negative_size_refuted", "Verif.C87_unseekable_refuted"], "note": "Refuted in general: the peek for a null representation longer than the value, arrays without a count, and negative sizes ask for more; a stream that does not support tell() cannot be loaded from. Proved for all other classes."},
{"property": "C88", "status": "proved", "theorems": ["Verif.C88_every_zone_like_utc", "Verif.C88_load_dump", "Verif.C88_dump", "Verif.C88_dump_load", "Verif.C88_dump_gap", "Verif.C88_gap_refuted", "Verif.C88_order_refuted"], "note": "Loading and dumping again is exact at every moment. Naive datetimes that clocks skip when they are put forward come back changed (C88_gap_refuted), so the last sentence of the property is restricted to datetimes that clocks do show; different moments may be loaded as equal datetimes (C88_order_refuted)."},
{"property": "C89", "status": "proved", "theorems": ["Verif.C89_timestamp_load", "Verif.C89_timestamp_dump", "Verif.C89_float_dump", "Verif.C89_big_endian_sorts", "Verif.C89_other_integers_refuted"], "note": "Zone-aware timestamps; naive ones do not keep their order where clocks are put back (C88_order_refuted). Sorting as bytes holds for unsigned big-endian integers only (C89_other_integers_refuted)."},
{"property": "C90", "status": "partial", "theorems": ["Verif.C90_looks_partial", "Verif.C90_first_look_partial", "Verif.C90_eq_others_partial", "Verif.C90_used_up_refuted", "Verif.C90_second_dump_silent_refuted", "Verif.C90_dump_twice_refuted", "Verif.C90_len_refuted", "Verif.C90_eq_refuted", "Verif.C90_shared_refuted"], "note": "Proved for values without one-shot iterators, and for the first look at values with them. Refuted for later looks: a second dump writes no items, and so does a dump after len() or ==; nobody is told unless a count was given."},
{"property": "C91", "status": "proved", "theorems": ["Verif.C91_ceil", "Verif.C91_vlq", "Verif.C91_compact", "Verif.C91_encoders", "Verif.C91_bound_needed"], "note": "C91_bound_needed is not a defect anyone can meet: the operand takes eight pebibytes."},
{"property": "C92", "status": "proved", "theorems": ["Verif.C92_schedule", "Verif.C92_any_two", "Verif.C92_mutable_default_refuted"], "note": "C92_mutable_default_refuted shows that the condition on defaults is needed. Commands are atomic."},
{"property": "C93", "status": "proved", "theorems": ["Verif.C93_rebuild", "Verif.C93_same_bytes", "Verif.C93_plain", "Verif.C93_validator_refuted", "Verif.C93_present_refuted"], "note": "Side conditions as stated in the property; the two refutations show that they are needed."},
{"property": "C94", "status": "partial", "theorems": ["Verif.C94_field_partial", "Verif.C94_struct_partial", "Verif.C94_from_bytes_partial", "Verif.C94_text", "Verif.C94_count_refuted", "Verif.C94_null_refuted"], "note": "Proved for arrays with a fixed count or with elements of at least one byte, and self-referential classes guarded by a byte; refuted without that condition, and for what a nullable field of declared size builds on the way. Not covered: loads that fail, custom halt checks, counts bounded only by the range of an integer field."},
{"property": "C95", "status": "partial", "theorems": ["Verif.C95_snapshot_partial", "Verif.C95_deterministic", "Verif.C95_computed_from_refuted", "Verif.C95_validated_refuted"], "note": "Proved: the output is the dump of one dictionary with a value for every field that is not discarded (compute functions of discarded fields must be functions), and equals the pure model whenever the callables that are called are functions. Refuted: that computed fields agree with what they were computed from (each read of an unset computed field computes it again), and that what is written is what was validated."},
{"property": "C96", "status": "partial", "theorems": ["Verif.C96_calls", "Verif.C96_twice_partial", "Verif.C96_exponential_refuted"], "note": "The exact number of calls is proved; it is linear (two per computed field) when compute functions read only fields that have values. In general it is exponential in the number of fields, which refutes the claim. Classes without validator methods, `present` callables, discarded fields and nested structs."},
{"property": "C97", "status": "proved", "theorems": ["Verif.C97_wav_classes", "Verif.C97_bmp_class", "Verif.C97_cpio_class", "Verif.C97_fat_class", "Verif.C97_wav_data", "Verif.C97_wav_format", "Verif.C97_wav_header", "Verif.C97_bmp", "Verif.C97_fat", "Verif.C97_cpio", "Verif.C97_reload", "Verif.C97_wav_too_long", "Verif.C97_cpio_name_too_long"], "note": "End-to-end: from the class statement of the example to the bytes, for all values."},
{"property": "C98", "status": "partial", "theorems": ["Verif.C98_follows_partial", "Verif.C98_loaded_stays", "Verif.C98_follows_refuted", "Verif.C98_wav_rate_refuted", "Verif.C98_wav_data_refuted", "Verif.C98_wav_rate_deleted"], "note": "Holds for instances without a stored value of the computed field; refuted for loaded instances, which keep the loaded value of a computed field until it is deleted, even though assigning to it is forbidden."},
{"property": "C99", "status": "proved", "theorems": ["Verif.C99_dump", "Verif.C99_lookup", "Verif.C99_validate", "Verif.C99_to_dict", "Verif.C99_len", "Verif.C99_partial_dump", "Verif.C99_keywords", "Verif.C99_history", "Verif.C99_swap", "Verif.C99_same_exception_refuted"], "note": "Everything up to the choice of the exception when both dumps raise before writing; C99_same_exception_refuted shows that this choice does depend on the order."}
]}
