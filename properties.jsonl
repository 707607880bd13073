{"id": "C01", "title": "VLQ round trip", "statement": "For every non-negative integer v, encode_integer_vlq(v) succeeds and decode_integer_vlq, run on those bytes followed by anything, returns v and leaves the stream exactly after the encoded bytes.", "quantifier": "all non-negative integers of any magnitude, all trailing bytes, all start offsets", "why_tests_cant": "integers are unbounded; tests sample a handful", "anchors": ["binobj/varints.py:encode_integer_vlq", "binobj/varints.py:decode_integer_vlq"]}
{"id": "C02", "title": "ULEB128 round trip", "statement": "For every non-negative integer v, encode_integer_uleb128(v) succeeds and decode_integer_uleb128 on those bytes followed by anything returns v and consumes exactly the encoded bytes.", "quantifier": "all non-negative integers, all trailing bytes, all start offsets", "why_tests_cant": "integers are unbounded", "anchors": ["binobj/varints.py:encode_integer_uleb128", "binobj/varints.py:decode_integer_uleb128"]}
{"id": "C03", "title": "Signed LEB128 round trip", "statement": "For every integer v (positive, zero or negative), decode_integer_leb128 applied to encode_integer_leb128(v) followed by anything returns v and consumes exactly the encoded bytes.", "quantifier": "all integers of either sign and any magnitude, all trailing bytes, all start offsets", "why_tests_cant": "unbounded domain; sign-extension boundaries occur at every power of 64/128", "anchors": ["binobj/varints.py:encode_integer_leb128", "binobj/varints.py:decode_integer_leb128"]}
{"id": "C04", "title": "Compact-index round trip", "statement": "For every integer v, decode_integer_compact applied to encode_integer_compact(v) followed by anything returns v and consumes exactly the encoded bytes.", "quantifier": "all integers, all trailing bytes, all start offsets", "why_tests_cant": "unbounded domain; byte-count boundaries at every 6+7k bits", "anchors": ["binobj/varints.py:encode_integer_compact", "binobj/varints.py:decode_integer_compact"]}
{"id": "C05", "title": "Variable-length encodings are self-delimiting and prefix-free", "statement": "Every encoding produced by any of the four variable-length encoders is a non-empty byte string in which exactly the last byte has its high bit clear; hence no encoding is a proper prefix of another encoding in any of the formats.", "quantifier": "all encodable integers and all pairs of them, all four formats", "why_tests_cant": "quantifies over pairs of unbounded integers", "anchors": ["binobj/varints.py:INTEGER_ENCODING_MAP"]}
{"id": "C06", "title": "Variable-length encodings are minimal", "statement": "The encoders never emit more bytes than necessary: any byte string that the matching decoder maps to v is at least as long as the encoding of v.", "quantifier": "all integers v, all byte strings that decode to v, all four formats", "why_tests_cant": "quantifies over all alternative encodings of every integer", "anchors": ["binobj/varints.py"]}
{"id": "C07", "title": "Variable-length decoders accept exactly the delimited strings and compute the documented value", "statement": "On any stream, a variable-length decoder consumes exactly the bytes up to and including the first one with a clear high bit, and returns the value the format documents (base-128 big/little-endian, two's complement for LEB128, sign-magnitude for compact) - also for non-canonical encodings; if there is no such byte it raises UnexpectedEOFError after consuming everything.", "quantifier": "all byte streams and start offsets, all four formats", "why_tests_cant": "all byte strings, including non-canonical and truncated ones", "anchors": ["binobj/varints.py:decode_integer_vlq", "binobj/varints.py:decode_integer_uleb128", "binobj/varints.py:decode_integer_leb128", "binobj/varints.py:decode_integer_compact"]}
{"id": "C08", "title": "Unsigned formats reject negatives", "statement": "encode_integer_vlq and encode_integer_uleb128 raise ValueError for every negative integer; a VariableLengthInteger field with such a format turns this into UnserializableValueError and writes nothing.", "quantifier": "all negative integers", "why_tests_cant": "unbounded domain", "anchors": ["binobj/varints.py:encode_integer_vlq", "binobj/varints.py:encode_integer_uleb128", "binobj/fields/numeric.py:VariableLengthInteger._do_dump"]}
{"id": "C09", "title": "max_bytes bounds what a VariableLengthInteger writes", "statement": "A VariableLengthInteger with max_bytes=k never writes more than k bytes for a non-null value: a longer encoding raises ValueSizeError and nothing is written. (Loading does not enforce max_bytes.)", "quantifier": "all formats, all k, all integers", "why_tests_cant": "unbounded values and limits", "anchors": ["binobj/fields/numeric.py:VariableLengthInteger"]}
{"id": "C10", "title": "Fixed-size integer round trip", "statement": "For every size, signedness and byte order, every integer that write_int can write is read back by read_int as the same integer, consuming exactly the bytes written; and writing back any integer read from n bytes reproduces those n bytes.", "quantifier": "all byte counts n, both signs, both byte orders, all integers in range, all n-byte strings", "why_tests_cant": "all sizes and all values", "anchors": ["binobj/helpers.py:read_int", "binobj/helpers.py:write_int", "binobj/fields/numeric.py:Integer"]}
{"id": "C11", "title": "Integer range check is exact", "statement": "Dumping v in an n-byte Integer succeeds iff 0 <= v < 256**n (unsigned) or -256**n/2 <= v < 256**n/2 (signed), writes exactly n bytes; otherwise UnserializableValueError is raised and nothing is written.", "quantifier": "all sizes, signs, byte orders, all integers", "why_tests_cant": "all boundaries at all sizes", "anchors": ["binobj/helpers.py:write_int", "binobj/fields/numeric.py:Integer._do_dump"]}
{"id": "C12", "title": "Byte order only reverses the bytes", "statement": "The big-endian and little-endian serializations of the same integer with the same size and sign are byte-reversals of each other, and fail on the same inputs.", "quantifier": "all sizes, signs, integers", "why_tests_cant": "all values", "anchors": ["binobj/helpers.py:write_int", "binobj/helpers.py:read_int"]}
{"id": "C13", "title": "Short reads are reported, never guessed", "statement": "Reading a fixed-size integer, Bytes, String, Float or UUID field from a stream with fewer bytes left than its (non-negative) size raises UnexpectedEOFError carrying the requested size; no value is fabricated.", "quantifier": "all sizes and all truncated streams", "why_tests_cant": "every truncation point", "anchors": ["binobj/helpers.py:read_int", "binobj/fields/base.py:Field._read_exact_size", "binobj/fields/stringlike.py:UUID4._do_load"]}
{"id": "C14", "title": "Field.to_stream is all-or-nothing", "statement": "If Field.to_stream raises - from a validator, an unserializable value, a size mismatch, or a failure deep inside an array, union or nested struct - not a single byte has been written to the caller's stream.", "quantifier": "all field configurations including arbitrarily nested containers, all values, all contexts, all failure points", "why_tests_cant": "every failure point inside arbitrarily nested data", "anchors": ["binobj/fields/base.py:Field.to_stream", "binobj/fields/containers.py:Array._do_dump"]}
{"id": "C15", "title": "Fixed-size fields write exactly size bytes", "statement": "Whenever a field with a fixed integer size dumps a non-None value successfully, exactly that many bytes are written - for every field type, including arrays, unions and nested structs; likewise for a field whose size is given by another field.", "quantifier": "all field types and configurations, all values", "why_tests_cant": "all values and configurations", "anchors": ["binobj/fields/base.py:Field.to_stream", "binobj/fields/base.py:Field._add_padding", "binobj/fields/stringlike.py:String._encode_and_resize"]}
{"id": "C16", "title": "Absent fields have no footprint", "statement": "If a field's present() callback is false, loading it consumes nothing and yields not_present_value, and a struct dump writes nothing for it, even if a value is set.", "quantifier": "all field types, all presence callbacks, all streams, all values", "why_tests_cant": "arbitrary callbacks and values", "anchors": ["binobj/fields/base.py:Field.from_stream", "binobj/fields/base.py:Field.compute_value_for_dump", "binobj/structures.py:Struct.to_stream"]}
{"id": "C17", "title": "None round-trips through null_value", "statement": "For a nullable field, dumping None and loading the result yields None and consumes exactly the bytes written, whichever way null_value is specified (raw bytes, deserialized value, or DEFAULT with a known size).", "quantifier": "all field types and null_value settings, all trailing bytes", "why_tests_cant": "arbitrary null representations and following data", "anchors": ["binobj/fields/base.py:Field._get_null_repr", "binobj/fields/base.py:Field.from_stream", "binobj/fields/base.py:Field.to_stream"]}
{"id": "C18", "title": "Const is enforced on load", "statement": "If loading a const field succeeds, the result equals the const value (or is None for a nullable field, or the field is absent); any other bytes raise.", "quantifier": "all field types, const values, input streams", "why_tests_cant": "all byte strings", "anchors": ["binobj/fields/base.py:Field.from_stream"]}
{"id": "C19", "title": "Const fields always dump their const value", "statement": "A field declared with const always has this value when the struct is dumped (documentation of the const argument).", "quantifier": "all structs with const fields, all ways of creating/modifying an instance", "why_tests_cant": "all histories of constructor arguments and assignments", "anchors": ["binobj/fields/base.py:Field", "binobj/fields/base.py:Field.__set__", "binobj/structures.py:Struct.__init__"]}
{"id": "C20", "title": "Nothing passes a failing validator", "statement": "If any validator of a field rejects a value, then loading that value raises, dumping it raises and writes nothing, and assigning it raises and leaves the instance unchanged. A struct load or dump that succeeds has passed every field validator, method validator and struct validator.", "quantifier": "all validators, fields, values, structs", "why_tests_cant": "arbitrary validators and values", "anchors": ["binobj/fields/base.py:Field.from_stream", "binobj/fields/base.py:Field.to_stream", "binobj/fields/base.py:Field.__set__", "binobj/structures.py:Struct.validate_contents"]}
{"id": "C21", "title": "Field.from_bytes(exact=True) rejects all trailing data", "statement": "Field.from_bytes with exact=True succeeds iff from_stream succeeds and every input byte was consumed; with exact=False trailing bytes are ignored.", "quantifier": "all fields, all byte strings", "why_tests_cant": "all inputs", "anchors": ["binobj/fields/base.py:Field.from_bytes"]}
{"id": "C22", "title": "Struct.from_bytes(exact=True) rejects all trailing data", "statement": "With exact=True, Struct.from_bytes raises ExtraneousDataError whenever bytes are left over after loading the struct.", "quantifier": "all struct classes, all byte strings", "why_tests_cant": "all inputs; the single-trailing-byte boundary", "anchors": ["binobj/structures.py:Struct.from_bytes"]}
{"id": "C23", "title": "Peeking and get_field do not move the stream", "statement": "peek_bytes and Struct.get_field leave the stream position where it was, whether they return or raise.", "quantifier": "all streams, positions, struct classes, field names, contexts, callbacks", "why_tests_cant": "every exception path", "anchors": ["binobj/helpers.py:peek_bytes", "binobj/structures.py:Struct.get_field"]}
{"id": "C24", "title": "get_field agrees with a full load", "statement": "If loading the whole struct succeeds, get_field for any of its fields returns the same value as that field of the loaded struct.", "quantifier": "all struct classes, streams, field names", "why_tests_cant": "all layouts and data", "anchors": ["binobj/structures.py:Struct.get_field", "binobj/structures.py:collect_assigned_fields"]}
{"id": "C25", "title": "Field offsets are where the bytes are", "statement": "A field's offset is the sum of the sizes of the preceding fields (starting with the inherited ones) if all of them have fixed size, else None; and if offset is not None and every earlier field is present and non-None, a dump places the field's bytes at that offset.", "quantifier": "all class declarations, inheritance chains, values", "why_tests_cant": "all declarations and values", "anchors": ["binobj/structures.py:collect_assigned_fields", "binobj/structures.py:StructMetadata.from_class"]}
{"id": "C26", "title": "Struct round trip", "statement": "For struct classes made of the built-in fields, loading the bytes of a dumped instance yields a struct whose fields equal the dumped values, consuming exactly those bytes, regardless of what follows - including backward size/count references, arrays and arbitrarily deep nesting.", "quantifier": "all such struct classes, all field values that can be dumped, all trailing bytes", "why_tests_cant": "all layouts, values and nesting depths", "anchors": ["binobj/structures.py:Struct.to_stream", "binobj/structures.py:Struct.from_stream", "binobj/fields/containers.py"]}
{"id": "C27", "title": "Load-then-dump is byte-identical for canonical layouts", "statement": "For struct classes made of fixed-size integers, bytes, single-byte strings, UUIDs and nested structs/arrays of them, dumping a struct loaded from b reproduces exactly the bytes that were consumed.", "quantifier": "all such classes and all byte strings", "why_tests_cant": "all inputs", "anchors": ["binobj/structures.py:Struct.from_stream", "binobj/structures.py:Struct.to_stream"]}
{"id": "C28", "title": "A dump is the concatenation of its fields in declaration order", "statement": "The bytes written by Struct.to_stream are the concatenation, in declaration order with inherited fields first, of what each present field writes for its value, and nothing else.", "quantifier": "all struct classes and values", "why_tests_cant": "all classes and values", "anchors": ["binobj/structures.py:Struct.to_stream", "binobj/structures.py:StructMetadata.from_class"]}
{"id": "C29", "title": "A failing struct dump leaves a whole-field prefix", "statement": "If Struct.to_stream raises, the bytes already written are exactly the serializations of the first k present fields for some k; if validation or to_dict raises, nothing was written.", "quantifier": "all classes, values and failure points", "why_tests_cant": "every failure point", "anchors": ["binobj/structures.py:Struct.to_stream"]}
{"id": "C30", "title": "get_size is the size of every instance", "statement": "If Struct.get_size() returns n, every instance that dumps successfully takes n bytes.", "quantifier": "all struct classes and instances", "why_tests_cant": "all values", "anchors": ["binobj/structures.py:StructMetadata.get_size", "binobj/fields/base.py:Field.get_expected_size"]}
{"id": "C31", "title": "len(struct) equals the number of bytes dumped", "statement": "If len(s) and s.to_bytes() succeed, len(s) == len(s.to_bytes()).", "quantifier": "all struct classes and values", "why_tests_cant": "all values", "anchors": ["binobj/structures.py:Struct.__len__"]}
{"id": "C32", "title": "Value precedence on dump", "statement": "The value dumped for a field is: the explicitly set value if there is one, else the default/const, else the computed value; if there is none, MissingRequiredValueError is raised - unless the field is not present.", "quantifier": "all fields, values, callbacks", "why_tests_cant": "all combinations", "anchors": ["binobj/fields/base.py:Field.compute_value_for_dump"]}
{"id": "C33", "title": "A factory supplies the default on dump", "statement": "A field created with factory=f and no value set dumps f() (documentation of factory: returns a default value for this field).", "quantifier": "all fields with factories", "why_tests_cant": "all factories", "anchors": ["binobj/fields/base.py:Field.default", "binobj/fields/base.py:Field.compute_value_for_dump"]}
{"id": "C34", "title": "Computed and const fields cannot be assigned", "statement": "Assigning to a computed or const field raises ImmutableFieldError and leaves the instance unchanged; so after any history of assignments and deletions the stored value of such a field is still the one given at construction or nothing, and its visible value is computed from the current values of the others.", "quantifier": "all histories of item/attribute assignment and deletion", "why_tests_cant": "all histories", "anchors": ["binobj/fields/base.py:Field.__set__", "binobj/fields/base.py:Field.computes", "binobj/structures.py:Struct.__setitem__"]}
{"id": "C35", "title": "A struct behaves like a map over its declared fields", "statement": "For any sequence of get/set/delete operations through items, reads return the last written value, unknown names raise KeyError and change nothing, and iteration yields exactly the names with a defined value.", "quantifier": "all histories of operations, all classes", "why_tests_cant": "all histories", "anchors": ["binobj/structures.py:Struct.__getitem__", "binobj/structures.py:Struct.__setitem__", "binobj/structures.py:Struct.__delitem__", "binobj/structures.py:Struct.__iter__"]}
{"id": "C36", "title": "Unknown keyword arguments are rejected", "statement": "Constructing a struct with any keyword that is not a field name raises UnexpectedValueError naming exactly the unknown keywords; so the stored values are always keyed by declared fields.", "quantifier": "all classes and keyword sets", "why_tests_cant": "all keyword sets", "anchors": ["binobj/structures.py:Struct.__init__"]}
{"id": "C37", "title": "discard drops a field from results but not from the layout", "statement": "A discarded field is read and validated on load and its bytes consumed, but the loaded struct and to_dict() do not contain it.", "quantifier": "all classes, streams", "why_tests_cant": "all classes and data", "anchors": ["binobj/structures.py:Struct.from_stream", "binobj/structures.py:Struct.partial_load", "binobj/structures.py:Struct.to_dict"]}
{"id": "C38", "title": "An explicitly set value is the one that is dumped", "statement": "If the caller sets a value for a (non-computed, present) field, Struct.to_bytes serializes that value.", "quantifier": "all classes and values", "why_tests_cant": "all field options combined", "anchors": ["binobj/structures.py:Struct.to_stream", "binobj/structures.py:Struct.to_dict"]}
{"id": "C39", "title": "Array element count is enforced", "statement": "With an element count n (constant or from another field), dumping succeeds only for exactly n elements and otherwise raises ArraySizeError, for lists and for unsized iterables; loading yields exactly n elements, and fails rather than return fewer.", "quantifier": "all counts, component fields, data", "why_tests_cant": "all counts and data", "anchors": ["binobj/fields/containers.py:Array._do_dump", "binobj/fields/containers.py:Array._dump_unsized", "binobj/fields/containers.py:Array._do_load", "binobj/fields/containers.py:Array.should_halt"]}
{"id": "C40", "title": "Array round trip", "statement": "If every element of a list round-trips through the component field, the list round-trips through the array - with a fixed count, a referenced count, or no count when the array is the last thing in the stream.", "quantifier": "all component fields, lists of any length", "why_tests_cant": "unbounded lengths", "anchors": ["binobj/fields/containers.py:Array"]}
{"id": "C41", "title": "Loading an array terminates iff every iteration makes progress", "statement": "With no count, loading an array terminates (with a value or an exception) whenever each component load consumes at least one byte; a component that consumes nothing makes it loop forever on a non-empty stream, as does a never-present component with a positive count.", "quantifier": "all component fields and streams", "why_tests_cant": "non-termination is not observable by a test", "anchors": ["binobj/fields/containers.py:Array._do_load", "binobj/fields/containers.py:Array.should_halt"]}
{"id": "C42", "title": "Nested structs are serialized exactly like stand-alone ones", "statement": "A Nested(S) field writes exactly S(...).to_bytes() and loads exactly S.from_stream(), passing the context through, for dict and instance values alike.", "quantifier": "all classes and values", "why_tests_cant": "all values", "anchors": ["binobj/fields/containers.py:Nested"]}
{"id": "C43", "title": "Union dispatches to the decided choice", "statement": "A Union writes exactly what the choice picked by dump_decider writes and loads what the choice picked by load_decider loads; anything other than a legal choice raises TypeError.", "quantifier": "all choices, deciders, values", "why_tests_cant": "arbitrary deciders", "anchors": ["binobj/fields/containers.py:Union"]}
{"id": "C44", "title": "Validation of a Union's field choices is symmetric", "statement": "A value that a Union's chosen field would reject on dump (validators, const) is also rejected on load.", "quantifier": "all choices, values", "why_tests_cant": "arbitrary validators", "anchors": ["binobj/fields/containers.py:Union._do_load"]}
{"id": "C45", "title": "StringZ round trip", "statement": "Every string without NUL that the encoding can encode round-trips through an unsized StringZ, consuming exactly the bytes up to and including the terminator, whatever follows; a string containing NUL loads back as the part before the first NUL.", "quantifier": "all strings in all supported encodings, all trailing bytes", "why_tests_cant": "unbounded strings and following data", "anchors": ["binobj/fields/stringlike.py:StringZ"]}
{"id": "C46", "title": "A missing StringZ terminator is an error", "statement": "Loading a StringZ from data without a terminator within the size limit raises; it never returns a truncated string, and never consumes more than size bytes when a size is set.", "quantifier": "all byte strings, sizes, encodings", "why_tests_cant": "all inputs", "anchors": ["binobj/fields/stringlike.py:StringZ._do_load", "binobj/helpers.py:iter_bytes"]}
{"id": "C47", "title": "A default value does not change how a field loads", "statement": "Giving a variable-length field (e.g. StringZ) a default value does not change which inputs it can load.", "quantifier": "all defaults and inputs", "why_tests_cant": "inputs longer than the default", "anchors": ["binobj/fields/base.py:Field.get_expected_size", "binobj/fields/stringlike.py:StringZ._do_load"]}
{"id": "C48", "title": "Padding a StringZ keeps the stream aligned", "statement": "A StringZ with a fixed size and pad_byte that dumps n bytes consumes n bytes when loaded.", "quantifier": "all strings and sizes", "why_tests_cant": "all shorter strings", "anchors": ["binobj/fields/stringlike.py:StringZ", "binobj/fields/stringlike.py:String._add_padding"]}
{"id": "C49", "title": "Fixed-length String dump and load", "statement": "A String of size n dumps exactly n bytes: the encoded text followed by pad bytes; text longer than n bytes, or shorter without pad_byte, raises ValueSizeError; a StringZ with a declared size does the same with its terminator counted. Loading of a String returns the decoding of exactly n bytes, so text of exactly n encoded bytes round-trips, and shorter text comes back with its padding.", "quantifier": "all strings, sizes, pad bytes, encodings", "why_tests_cant": "all strings", "anchors": ["binobj/fields/stringlike.py:String"]}
{"id": "C50", "title": "UUID round trip", "statement": "Every UUID round-trips through all four storage formats, with sizes 16, 16, 36 and 32 bytes, and the two binary formats differ only by the byte order of the first three groups.", "quantifier": "all 2**128 UUIDs, all formats", "why_tests_cant": "2**128 values", "anchors": ["binobj/fields/stringlike.py:UUID4"]}
{"id": "C51", "title": "Text encodings round trip", "statement": "For the ASCII, Latin-1, UTF-8, UTF-16-LE/BE and UTF-32-LE/BE codecs and the single-byte code pages (cp1252, ISO 8859-x, KOI8, EBCDIC, ...) as used by String and StringZ: decoding an encoded string gives it back, also when fed byte by byte. What decodes to a string is its encoding, unless a code page has several bytes for one character.", "quantifier": "all encodable strings", "why_tests_cant": "unbounded strings", "anchors": ["binobj/fields/stringlike.py:String._do_load", "binobj/fields/stringlike.py:StringZ._do_load"]}
{"id": "C52", "title": "Float round trip", "statement": "Every bit pattern of a Float16/32/64 field that is not NaN is reproduced by load-then-dump; every float representable in the field's format is reproduced by dump-then-load; out-of-range values raise instead of writing infinity.", "quantifier": "all bit patterns / floats", "why_tests_cant": "2**64 values", "anchors": ["binobj/fields/numeric.py:Float"]}
{"id": "C53", "title": "Float range errors are SerializationErrors", "statement": "Dumping a float that does not fit raises a binobj SerializationError.", "quantifier": "all floats", "why_tests_cant": "documented error contract on all inputs", "anchors": ["binobj/fields/numeric.py:Float._do_dump"]}
{"id": "C54", "title": "Timestamp round trip at second resolution", "statement": "With resolution 's', loading an integer timestamp and dumping the result gives the same integer, for every timestamp in datetime's range.", "quantifier": "all integers in datetime's range", "why_tests_cant": "10^11 values", "anchors": ["binobj/fields/numeric.py:Timestamp"]}
{"id": "C55", "title": "Timestamp round trip at sub-second resolution", "statement": "With resolution 'ms'/'us', loading an integer timestamp and dumping the result gives the same integer.", "quantifier": "all integers in datetime's range", "why_tests_cant": "floating-point rounding on every value", "anchors": ["binobj/fields/numeric.py:Timestamp"]}
{"id": "C56", "title": "Byte-order defaults have a fixed precedence", "statement": "The byte order used by an Integer field bound to a struct is the explicit endian argument if given, else Meta.argument_defaults['<FieldClass>__endian'], else ['endian'], else sys.byteorder.", "quantifier": "all combinations of settings", "why_tests_cant": "all combinations", "anchors": ["binobj/fields/base.py:Field.bind_to_container", "binobj/fields/base.py:Field.__new__"]}
{"id": "C57", "title": "Meta argument defaults reach every field of the struct", "statement": "argument_defaults apply to all fields in the struct's layout that do not override them.", "quantifier": "all declarations", "why_tests_cant": "fields nested in arrays/unions", "anchors": ["binobj/fields/base.py:Field.bind_to_container", "binobj/fields/containers.py:Array.__init__"]}
{"id": "C58", "title": "Inheritance extends the parent's layout and never alters the parent", "statement": "A subclass's components are the parent's followed by its own, in order; redefining an inherited field or inheriting from two structs raises; validators added in a subclass do not affect the parent, and the subclass runs all inherited ones.", "quantifier": "all inheritance chains", "why_tests_cant": "unbounded chains", "anchors": ["binobj/structures.py:StructMetadata.from_class", "binobj/structures.py:bind_validators_to_struct"]}
{"id": "C59", "title": "Equality of structs", "statement": "Struct equality is reflexive and symmetric between structs, depends only on defined values, and agrees with equality of the corresponding dicts.", "quantifier": "all pairs of structs", "why_tests_cant": "all pairs", "anchors": ["binobj/structures.py:Struct.__eq__"]}
{"id": "C60", "title": "partial_dump writes a prefix of the full dump", "statement": "If partial_dump and to_bytes both succeed, what partial_dump writes is a prefix of to_bytes, ending with last_field if given.", "quantifier": "all classes and values", "why_tests_cant": "all values", "anchors": ["binobj/structures.py:Struct.partial_dump"]}
{"id": "C61", "title": "partial_load agrees with a full load", "statement": "partial_load up to a field yields the same values as the corresponding fields of a full load and leaves the stream right after that field; without last_field, on a truncated stream it returns the complete fields and repositions the stream after the last of them.", "quantifier": "all classes, streams and truncation points", "why_tests_cant": "every truncation point", "anchors": ["binobj/structures.py:Struct.partial_load"]}
{"id": "C62", "title": "init_kwargs override loaded values but not the layout", "statement": "Values given in init_kwargs take precedence over loaded ones in the resulting struct, the caller's dict is not modified, and the bytes of overridden fields are still consumed.", "quantifier": "all classes, overrides, streams", "why_tests_cant": "all overrides", "anchors": ["binobj/structures.py:Struct.from_stream"]}
{"id": "C63", "title": "Loading depends only on the bytes consumed", "statement": "For fields that do not read to EOF, the loaded value, and the number of bytes consumed, do not depend on the bytes after the consumed ones; loading never moves the stream backwards or past its end.", "quantifier": "all field types, streams, trailing data", "why_tests_cant": "all trailing data", "anchors": ["binobj/fields/base.py:Field.from_stream", "binobj/fields/containers.py"]}
{"id": "C64", "title": "to_dict is fully converted", "statement": "The result of to_dict() contains no Struct at any depth.", "quantifier": "all nested values", "why_tests_cant": "unbounded nesting", "anchors": ["binobj/structures.py:recursive_to_dicts", "binobj/structures.py:Struct.to_dict"]}
{"id": "C65", "title": "A negative size field cannot make a field over-read", "statement": "A Bytes/String field whose size comes from another field never reads more bytes than that field's value says.", "quantifier": "all values of the size field, including negative ones", "why_tests_cant": "all values", "anchors": ["binobj/fields/base.py:Field._read_exact_size", "binobj/fields/base.py:Field.get_expected_size"]}
{"id": "C66", "title": "Malformed input raises only documented errors", "statement": "Loading arbitrary bytes into a struct class made of the library's own fields (sizes and counts being numbers or earlier integer fields) either succeeds or raises a DeserializationError or a ValidationError; never a bare ValueError, TypeError, KeyError or AttributeError.", "quantifier": "all byte strings, all such classes (nested and recursive ones included), all contexts", "why_tests_cant": "the set of malformed inputs is infinite; fuzzing samples it", "anchors": ["binobj/structures.py:Struct.from_stream", "binobj/structures.py:Struct.from_bytes", "binobj/fields/base.py:Field.from_stream"]}
{"id": "C67", "title": "Loading terminates on every input", "statement": "Loading any byte string into a struct class ends, with an instance or an exception.", "quantifier": "all byte strings, all class tables including mutually recursive classes, unsized arrays and unions", "why_tests_cant": "termination for all inputs; a diverging input cannot be told from a slow one by running it", "anchors": ["binobj/structures.py:Struct.from_stream", "binobj/fields/containers.py:Array._do_load", "binobj/fields/containers.py:Nested._do_load", "binobj/fields/containers.py:Union._do_load"]}
{"id": "C68", "title": "Field options mean what they say", "statement": "Whatever field class is constructed: default together with factory, a padding 'byte' of another length, a compute function for a constant and a second compute function are ConfigurationErrors; a constant is also the default; a constant without a size fixes the size of the field to the length of the constant's encoding; an array of a fixed number of fixed-size elements has the product as its size and accepts every list of that length.", "quantifier": "all field classes, all combinations of constructor arguments, all values", "why_tests_cant": "the combinations of options times field classes times values are unbounded", "anchors": ["binobj/fields/base.py:Field.__init__", "binobj/fields/base.py:Field.computes", "binobj/fields/containers.py:Array.__init__", "binobj/fields/stringlike.py:String.__init__"]}
{"id": "C69", "title": "Structs in one stream", "statement": "Structs of plain classes (integers, strings, arrays, nested structs and so on), also with fields that are left out depending on earlier ones, nullable, computed and discarded fields and unions decided by earlier fields, written one after another to a stream, are read back one after another with the same field values; each load takes exactly the bytes of its struct, whatever precedes the first and follows the last.", "quantifier": "all lists of struct classes and instances, all surrounding bytes", "why_tests_cant": "all sequences of all classes and values; a test fixes both", "anchors": ["binobj/structures.py:Struct.to_stream", "binobj/structures.py:Struct.from_stream"]}
{"id": "C70", "title": "Different structs have different dumps", "statement": "Two instances of a plain class, or of a class with conditional, nullable, computed or discarded fields and unions decided by earlier fields, whose dumps are the same bytes, or one of whose dumps begins with the other, have the same value in every field that is not discarded, and leave out the same fields; in particular no dump is a proper prefix of another one.", "quantifier": "all pairs of instances of every such class, nested to any depth", "why_tests_cant": "injectivity is about all pairs of values", "anchors": ["binobj/structures.py:Struct.to_bytes", "binobj/structures.py:Struct.to_stream"]}
{"id": "C71", "title": "Changing a field changes only its bytes", "statement": "When fields of a struct are assigned or deleted and the struct is dumped again, only the bytes of these fields change, and those of fields declared in terms of them (size, count, presence, compute function, union decider); if a changed field has a fixed size and stays present, the dump keeps its length and agrees with the old one outside the bytes of the field.", "quantifier": "all struct classes, all instances, all histories of assignments and deletions, all sets of fields the rest of the class does not refer to", "why_tests_cant": "non-interference between fields is about all pairs of instances and all later histories", "anchors": ["binobj/structures.py:Struct.to_stream", "binobj/structures.py:Struct.to_dict", "binobj/fields/base.py:Field.compute_value_for_dump", "binobj/fields/base.py:Field.to_stream"]}
{"id": "C72", "title": "Base classes read and write the beginning of a subclass's data", "statement": "A class declared with a base has the fields of the base, then its own, and runs all validators of the base. Whatever the subclass can be loaded from, the base class can be loaded from, with the same value in each of its fields and stopping where the first field of the subclass's own begins; and the dump of an instance of the subclass begins with the dump of an instance of the base with the same values, unless fields or validators of the base look at fields of the subclass.", "quantifier": "all programs, all classes and subclasses declared by assignment or by annotations, all streams, all instances", "why_tests_cant": "substitutability of a base for a subclass is about all pairs of classes and all inputs", "anchors": ["binobj/structures.py:StructMetadata.from_class", "binobj/structures.py:Struct.from_stream", "binobj/structures.py:Struct.to_stream", "binobj/pep526.py:dataclass"]}
{"id": "C73", "title": "Mapping proxies behave like dictionaries of the fields that are set", "statement": "StructMappingProxy(s) is a mapping whose items are the fields of s that are set: iteration, lookup, membership, get, len, == and conversion to a dict agree with each other; and pop, popitem, clear, update and setdefault of MutableStructMappingProxy do to the struct what they do to a dict, respecting validators and immutable fields.", "quantifier": "all struct classes, all instances, all histories of proxy operations", "why_tests_cant": "the mapping protocol relates all operations on all states, and histories are unbounded", "anchors": ["binobj/structures.py:StructMappingProxy", "binobj/structures.py:MutableStructMappingProxy"]}
{"id": "C74", "title": "The caller's context reaches every callable, unchanged", "statement": "The context object passed to to_stream/to_bytes, from_stream/from_bytes, partial_dump, partial_load or get_field is handed, unchanged, to every present callable, decider, halt check and user-defined field class involved, at every nesting depth, and has no other influence.", "quantifier": "all struct classes (arbitrarily nested), all values and streams, all contexts and all callables", "why_tests_cant": "the callables are arbitrary functions of the context and may sit at any depth of nested structs, arrays and unions", "anchors": ["binobj/structures.py:Struct.to_stream", "binobj/structures.py:Struct.from_stream", "binobj/structures.py:Struct.to_dict", "binobj/fields/base.py:Field.compute_value_for_dump", "binobj/fields/base.py:Field.from_stream", "binobj/fields/containers.py"]}
{"id": "C75", "title": "Dumping, to_dict, len and == come to an end", "statement": "Whatever values an instance holds (nested to any depth, of classes that may refer to themselves), to_stream/to_bytes, partial_dump, to_dict, len() and == return or raise; they never recurse without end.", "quantifier": "all struct classes (arbitrarily nested, mutually recursive), all instances and values, all contexts", "why_tests_cant": "termination is a statement about all values of all depths; classes may refer to each other recursively and supply defaults that are structs again", "anchors": ["binobj/structures.py:Struct.to_stream", "binobj/structures.py:Struct.to_dict", "binobj/structures.py:recursive_to_dicts", "binobj/structures.py:Struct.__len__", "binobj/structures.py:Struct.__eq__", "binobj/structures.py:Struct.partial_dump", "binobj/fields/containers.py"]}
{"id": "C76", "title": "Dumping values of the right type raises only documented errors", "statement": "Dumping an instance whose values have the types its fields are for (any size, any range, None, unset, missing, lists or iterators of any length, structs or dictionaries nested to any depth) either succeeds or raises a SerializationError or a ValidationError; it never raises TypeError, KeyError, AttributeError, or an error about the class.", "quantifier": "all struct classes whose size and count references resolve, all instances with values of the right type, all contexts", "why_tests_cant": "a caller that catches SerializationError relies on no other exception escaping for any value; that ranges over all values, all combinations of fields and all nesting depths", "anchors": ["binobj/structures.py:Struct.to_stream", "binobj/structures.py:Struct.to_dict", "binobj/fields/base.py:Field.to_stream", "binobj/fields/base.py:Field.get_expected_size", "binobj/fields/base.py:Field._get_null_repr", "binobj/fields/numeric.py", "binobj/fields/stringlike.py", "binobj/fields/containers.py:Array._do_dump", "binobj/fields/containers.py:Nested._do_dump", "binobj/errors.py"]}
{"id": "C77", "title": "Annotated classes are assigned classes in other words", "statement": "Declaring the fields of a struct by annotations with the dataclass decorator gives the same class as assigning the corresponding fields in the class body: the same fields with the same options at the same offsets, the same bytes when dumping, the same values when loading, the same validation.", "quantifier": "all lists of annotations (field classes, Optional field classes, field instances, struct classes, other annotations), all class options, all instances and streams", "why_tests_cant": "two independent implementations of class construction have to agree on all declarations and on everything done with the classes afterwards", "anchors": ["binobj/pep526.py:dataclass", "binobj/pep526.py:AnnotationInfo", "binobj/structures.py:StructMetadata.from_class", "binobj/structures.py:collect_assigned_fields", "binobj/structures.py:Struct.validate_contents"]}
{"id": "C78", "title": "A dump to a failing stream leaves a prefix, and a torn dump is never loaded", "statement": "If the stream given to to_stream or partial_dump raises at any point (full disk, broken pipe, crash in the middle of a write), what has been written is a prefix of the complete dump, made of whole fields plus at most the beginning of one; an exception is either the stream's or the one dumping to memory raises. A dump that returns has written everything. Loading a torn dump raises; it never yields a struct.", "quantifier": "all streams that accept a prefix of each chunk, all fault positions, all struct classes and instances (for the last part: classes in which no field reads to the end of the stream and no null representation begins with the bytes of a value)", "why_tests_cant": "the fault may come at any byte of any dump; a test can only try some crash points of some instances", "anchors": ["binobj/structures.py:Struct.to_stream", "binobj/structures.py:Struct.partial_dump", "binobj/fields/base.py:Field.to_stream", "binobj/structures.py:Struct.from_stream"]}
{"id": "C79", "title": "Arrays that end at a sentinel", "statement": "With a halt_check that stops when the last value loaded is a sentinel, a list whose only sentinel is its last element survives dumping and loading, whatever follows it in the stream; with a halt_check that also removes the sentinel, the same bytes load as the list without it, and the stream is left behind the sentinel. Whatever the input, a list such an array loads ended with a sentinel and has no other: reading never goes past the first one.", "quantifier": "all component fields, all notions of sentinel, lists of any length, all streams", "why_tests_cant": "lists of any length, any component, and any bytes after the sentinel", "anchors": ["binobj/fields/containers.py:Array._do_load", "binobj/fields/containers.py:Array.should_halt", "binobj/fields/containers.py:Array._do_dump"]}
{"id": "C80", "title": "Saving what was loaded from a save does not change the file", "statement": "If a struct can be dumped, its dump can be loaded, wherever it is in a stream, and dumping the struct that was loaded gives exactly the same bytes again, including for classes with conditional fields, nullable fields, computed fields and fields with defaults: values that the first dump filled in are not filled in differently the second time.", "quantifier": "all classes (recursive ones too) in which sizes, counts, conditions and the choices of unions are determined by earlier fields, all instances whose values match the fields, all contexts, all surrounding bytes", "why_tests_cant": "every instance of every class, nested to any depth, with any subset of the optional fields", "anchors": ["binobj/structures.py:Struct.to_stream", "binobj/structures.py:Struct.from_stream", "binobj/fields/base.py:Field.from_stream", "binobj/fields/base.py:Field.compute_value_for_dump"]}
{"id": "C81", "title": "Load errors say which field failed, and where", "statement": "When loading a struct raises a DeserializationError, the error's field is the first field of that struct that cannot be loaded (all fields before it can be), also if the cause is deep inside nested structs and arrays. An UnexpectedEOFError is true: its offset is a position in the data, not before the point where loading began, at which fewer than the reported number of bytes are left; for numbers, byte strings and strings it is the position at which the field begins.", "quantifier": "all classes whose references resolve (recursive ones too), all input bytes, all start positions, all contexts", "why_tests_cant": "every input that cannot be loaded: every truncation of every encoding, at every nesting depth", "anchors": ["binobj/fields/base.py:Field.from_stream", "binobj/fields/base.py:Field._read_exact_size", "binobj/helpers.py:read_int", "binobj/errors.py:DeserializationError", "binobj/errors.py:UnexpectedEOFError", "binobj/fields/stringlike.py:UUID4._do_load", "binobj/structures.py:Struct.from_stream"]}
{"id": "C82", "title": "The same bytes load the same wherever they are", "statement": "Loading a field or a struct depends only on the bytes ahead in the stream (and on context and already loaded values). With the same bytes ahead, at another position and after different bytes, it returns the same value or raises the same exception - the offset of an UnexpectedEOFError being moved along - and takes the same number of bytes.", "quantifier": "all classes whose callables do not ask for the position or the bytes behind it (recursive, nested, unions, conditional and nullable fields), all bytes before and after, all positions", "why_tests_cant": "every class at every position in every file", "anchors": ["binobj/structures.py:Struct.from_stream", "binobj/fields/base.py:Field.from_stream", "binobj/helpers.py:peek_bytes", "binobj/varints.py", "binobj/fields/containers.py:Array.should_halt"]}
{"id": "C83", "title": "Replacing the bytes of one field changes only that field", "statement": "If in the data of a struct the bytes taken by one field are replaced by other bytes from which that field can be loaded, of the same or another length, then loading the struct gives the new value for this field and the old values for all other fields, and ends correspondingly earlier or later; the only exception that can arise is one raised by validators of the struct. If the field has a fixed size, its bytes may be overwritten with anything: if the struct still loads, all other fields are as before.", "quantifier": "all classes in which later fields do not refer to the field and callables do not look at the stream; all data, all replacements", "why_tests_cant": "all classes, all fields, all corruptions of a field", "anchors": ["binobj/structures.py:Struct.from_stream", "binobj/fields/base.py:Field.from_stream", "binobj/fields/base.py:Field.get_expected_size"]}
{"id": "C84", "title": "to_dict takes a snapshot", "statement": "to_dict changes nothing, and returns a new dictionary from which no list, dictionary or struct instance that existed before the call can be reached: changing the struct or its arrays and nested structs later does not change the dictionary, and changing the dictionary or its parts does not change the struct or the class defaults. Only bytearray objects are shared. For classes without computed, conditional and factory-made fields, its contents are the to_dict of the struct's contents.", "quantifier": "all stores of objects with arbitrary sharing, all classes including ones with mutable default objects, all instances, any later changes", "why_tests_cant": "any aliasing between the objects held by fields, any nesting, any later mutation", "anchors": ["binobj/structures.py:Struct.to_dict", "binobj/structures.py:recursive_to_dicts", "binobj/structures.py:Struct._to_dict_whatever_possible"]}
{"id": "C85", "title": "Instances that are used separately stay separate", "statement": "If several parts of a program create, load, read, change and convert their own struct instances and hand no objects to one another, and the default, const and not_present_value objects of all fields are immutable, then no part ever reaches a mutable object that another part can reach, and nothing the others do changes the contents of what it has.", "quantifier": "all interleaved histories of operations by any number of parties, all classes with immutable defaults, all data", "why_tests_cant": "all histories and interleavings; any aliasing", "anchors": ["binobj/structures.py:Struct.__init__", "binobj/structures.py:Struct.from_stream", "binobj/structures.py:Struct.to_dict", "binobj/fields/base.py:Field.__get__", "binobj/fields/base.py:Field.__set__", "binobj/fields/base.py:Field.default", "binobj/fields/base.py:Field.not_present_value"]}
{"id": "C86", "title": "A stream that fails while loading cannot produce wrong data", "statement": "Loading from any stream that behaves like an io.BytesIO, except that calls of read, tell and seek may raise exceptions, either does exactly what it would do with an io.BytesIO, or raises the exception of the stream as it is; partial_load does not take a failure for the end of the data, and get_field puts the stream back where it was even if reading failed. If read may also return fewer bytes than asked for, as unbuffered files and sockets do, a load either returns the right value or raises an error.", "quantifier": "all streams given by arbitrary read, tell and seek behaviour within these limits, failing at any call; all classes and data; for short reads, all classes in which null takes at most one byte", "why_tests_cant": "every point at which a stream can fail, every pattern of short reads", "anchors": ["binobj/structures.py:Struct.from_stream", "binobj/structures.py:Struct.partial_load", "binobj/structures.py:Struct.get_field", "binobj/fields/base.py:Field.from_stream", "binobj/fields/base.py:Field._read_exact_size", "binobj/helpers.py:read_int", "binobj/helpers.py:peek_bytes", "binobj/helpers.py:iter_bytes", "binobj/fields/containers.py:Array.should_halt"]}
{"id": "C87", "title": "Loading asks for no byte beyond the struct", "statement": "A successful load never asks its stream for a byte beyond the last one that belongs to the struct, so that on a pipe or a connection (wrapped so that tell and seek work) it does not wait for data that may never come.", "quantifier": "all classes whose null representations are no longer than values and in which no field reads to the end of the stream (no negative sizes, no arrays without count and halt check); all data, all positions in it", "why_tests_cant": "io.BytesIO always answers at once, so a read too many goes unnoticed; it would have to be tried with every class and every input", "anchors": ["binobj/structures.py:Struct.from_stream", "binobj/fields/base.py:Field.from_stream", "binobj/fields/base.py:Field._read_exact_size", "binobj/helpers.py:read_int", "binobj/helpers.py:peek_bytes", "binobj/helpers.py:iter_bytes", "binobj/varints.py:decode_integer_vlq", "binobj/fields/containers.py:Array.should_halt"]}
{"id": "C88", "title": "Naive timestamps work in every local time zone", "statement": "A timestamp field with tz_aware=False represents moments in the platform's local time. Whatever this zone is, a stored moment is loaded as what clocks show then, and dumping the loaded datetime gives the same bytes, also for the hour that clocks show twice when they are put back. A naive datetime that clocks do show at some moment is loaded again as an equal one.", "quantifier": "all zones that are less than a day from UTC and whose clocks are changed by at most a day and not twice within a few days; all moments in the years 1 to 9999 (not the first and last week); all naive datetimes; all resolutions", "why_tests_cant": "Tests run in the zone of the machine, typically UTC, and at a few moments; the difficulty is in the hours around changes of the clocks, in every zone.", "anchors": ["binobj/fields/numeric.py:Timestamp._do_load", "binobj/fields/numeric.py:Timestamp._do_dump"]}
{"id": "C89", "title": "Numbers keep their order", "statement": "Converting numbers does not reverse their order. Of two zone-aware timestamps the one stored as the greater integer is never loaded as the earlier moment, and the later moment is never stored as the smaller integer, although both directions go through rounded floating-point arithmetic. Of two floats the greater one is never stored as the smaller number, also when it is rounded to half or single precision. Unsigned big-endian integers even sort as bytes as they sort as numbers.", "quantifier": "all resolutions, byte orders and sizes; all pairs of integers that can be loaded as timestamps; all pairs of zone-aware datetimes that can be dumped; all pairs of finite floats and all three float formats; all pairs of integers", "why_tests_cant": "Rounding errors appear for few pairs of neighbouring numbers, depending on their magnitude; there are too many pairs to try.", "anchors": ["binobj/fields/numeric.py:Timestamp._do_load", "binobj/fields/numeric.py:Timestamp._do_dump", "binobj/fields/numeric.py:Float._do_dump", "binobj/helpers.py:write_int"]}
{"id": "C90", "title": "Looking at an instance does not change it", "statement": "Dumping an instance, dumping a part of it, asking for its length, comparing it, converting it to a dictionary, validating it or reading a field does not change what any of these shows afterwards: in every sequence of such operations each one shows what it would show on its own. If an array was given a one-shot iterator such as a generator, the first look still shows what the items of the iterator say, no matter which of these operations it is.", "quantifier": "all struct classes, all values, all sequences of operations, all iterators", "why_tests_cant": "A test performs one sequence of operations; whether an operation leaves something behind depends on what was done before and on the kind of the values.", "anchors": ["binobj/fields/containers.py:Array._do_dump", "binobj/fields/containers.py:Array._dump_unsized", "binobj/structures.py:Struct.__len__", "binobj/structures.py:Struct.__eq__", "binobj/structures.py:Struct.to_stream", "binobj/structures.py:Struct.partial_dump"]}
{"id": "C91", "title": "The length of a variable-length integer is not spoiled by floating-point rounding", "statement": "VLQ and compact-index encoders size their output buffer with a floating-point division by 7 and math.ceil. For every integer of fewer than 2**52 bits the result is the exact quotient rounded up, so that the encoders return the shortest byte string that decodes to the value, as they would with exact arithmetic (and raise ValueError in the same cases).", "quantifier": "all integers of fewer than 2**52 bits (half a pebibyte), all leading and trailing bytes", "why_tests_cant": "Rounding errors of a division show up at isolated operands; tests with small integers exercise a few dozen quotients of the 2**52 possible ones, and the large ones need integers that do not fit in memory.", "anchors": ["binobj/varints.py:encode_integer_compact", "binobj/varints.py:encode_integer_vlq"]}
{"id": "C92", "title": "Parts of a program that share no objects do not notice each other, whatever the schedule", "statement": "If parts of a program (threads, requests, coroutines) each construct, load, read, change, dump, compare, validate and convert structs of their own, then in every interleaving of their operations each sees exactly what it would see alone: the same contents, the same exceptions, the same identities of objects. What it sees depends only on its own program and on how many operations it has performed, even if the others run other programs. (The defaults and not_present_values of the fields must be immutable objects.)", "quantifier": "all struct classes with immutable defaults, all programs (which may decide by what they have seen), any number of parts, all schedules", "why_tests_cant": "The number of interleavings grows exponentially with the number of operations, and a test observes one of them for one program.", "anchors": ["binobj/structures.py:Struct", "binobj/structures.py:Struct.from_stream", "binobj/structures.py:Struct.to_dict", "binobj/structures.py:recursive_to_dicts", "binobj/fields/base.py:Field.__get__", "binobj/fields/base.py:Field.__set__"]}
{"id": "C93", "title": "A struct can be rebuilt from its dictionary", "statement": "For every struct s that has a dictionary, Struct(**s.to_dict()) is accepted, its own to_dict() is the same dictionary (same keys, same order, same values), and it is dumped like s: the same bytes, or the same exception after the same bytes. Likewise with keep_discardable=True. Required: no present callable changes its mind about a field, a field left out because it is declared with discard has a default or can be computed, and the class's validators accept the rebuilt struct (they are shown dictionaries in place of nested structs).", "quantifier": "all struct classes, all instances with or without unset fields, nested to any depth, all contexts", "why_tests_cant": "Which fields are set, defaulted, computed, absent or discarded gives exponentially many instances of each class, and the dictionary is converted recursively to any depth.", "anchors": ["binobj/structures.py:Struct.to_dict", "binobj/structures.py:Struct.__init__", "binobj/structures.py:recursive_to_dicts", "binobj/structures.py:Struct.to_stream"]}
{"id": "C94", "title": "What is loaded is not much bigger than what was read", "statement": "Loading takes memory in proportion to the bytes read: if every array either has a fixed number of elements or elements that take at least one byte each, then the size of the loaded object (objects, characters, bytes and digits of numbers) is at most a constant times the number of bytes consumed plus one. The constant depends on the classes only, not on the input, and classes may contain themselves (after at least one byte). Without the condition no constant exists: with a count read from the data and elements without bytes, a few bytes make an object of any size.", "quantifier": "all classes with the stated shape (nested, self-referential, unions, arrays of arrays, user-defined field types that keep to the bound), all byte strings and stream positions, all contexts", "why_tests_cant": "A resource bound over all (hostile) inputs and nesting depths; any finite set of inputs is consistent with any growth rate.", "anchors": ["binobj/structures.py:Struct.from_stream", "binobj/structures.py:Struct.from_bytes", "binobj/fields/containers.py:Array._do_load", "binobj/fields/containers.py:Array.should_halt", "binobj/fields/containers.py:Nested._do_load", "binobj/fields/stringlike.py:StringZ._do_load", "binobj/fields/base.py:Field.from_stream"]}
{"id": "C95", "title": "One dump is the dump of one set of values, whatever the compute functions do", "statement": "Compute functions (`@field.computes`) need not be functions: they may look at a clock, a counter, a random number generator. Still, one call of `to_bytes()` / `to_stream()` of a struct writes one consistent set of values: every size, element count and value in it refers to the same value of each field, that set of values passed the struct's validators, and every computed field was computed from it. When the callables are functions - or when the fields with unruly compute functions have been given values, as in a struct that was loaded - dumping does what it does for pure callables and has no effect on anything but the stream.", "quantifier": "all struct classes, all compute functions as arbitrary stateful programs over an arbitrary state, all stored values (including nested structs with such functions), all states of the world", "why_tests_cant": "tests run with deterministic compute functions; how often and when a compute function is called is invisible to them, and so is whether two parts of the output refer to the same call", "anchors": ["binobj/structures.py: Struct.to_stream, validate_contents, to_dict, _to_dict_whatever_possible", "binobj/fields/base.py: Field.compute_value_for_dump, Field.computes, Field.__get__"]}
{"id": "C96", "title": "Compute functions are called a fixed number of times per dump", "statement": "One `to_bytes()` / `to_stream()` of a struct calls the compute function of each field a number of times that does not depend on the rest of the class, so the number of calls grows linearly with the number of fields. It is exactly twice (once for validation, once to collect the values) for a field without a value.", "quantifier": "all struct classes of any number of fields whose compute functions read other fields without going in circles, all sets of fields that were given values, all states", "why_tests_cant": "tests compare what is written, not how much work it took; the growth shows only over classes of every size", "anchors": ["binobj/structures.py: Struct.to_stream, validate_contents, to_dict, _to_dict_whatever_possible", "binobj/fields/base.py: Field.__get__, compute_value_for_dump"]}
{"id": "C97", "title": "The example formats are the formats they claim to be", "statement": "For every choice of values in range, the classes of the library's full examples (WAV header, format and data chunk; CPIO file header; BMP header; FAT12 boot sector) write exactly the bytes the format prescribes - each field in its place in little-endian byte order, computed sizes and rates filled in, the padding byte of a CPIO name present exactly if the name with its null byte has odd length, padded names filled up with spaces - and read back these values from these bytes anywhere in a stream. Any header that can be read is written back byte for byte. Audio of 4 GiB or more, and a CPIO name of 65535 bytes or more, raises an error naming the size field.", "quantifier": "all field values in range of their fields, all file names without null characters, all data, all positions in a stream; for reading and writing back, all streams", "why_tests_cant": "the tests of the examples use one or two headers each; that sizes, rates, padding and byte order are right for every header is a statement about all of them", "anchors": ["tests/full_examples/wav_test.py", "tests/full_examples/cpio_test.py", "tests/full_examples/bmp_test.py", "tests/full_examples/fat_test.py", "binobj/structures.py: Struct.to_stream, Struct.from_stream"]}
{"id": "C98", "title": "Computed fields follow the fields they are computed from", "statement": "Whatever was done with an instance, a computed field has the value its function makes of the current values, and this is what is dumped. In particular after loading a struct and changing a field, saving it writes up-to-date sizes, rates and checksums.", "quantifier": "all struct classes, all ways an instance came about (construction, loading from any stream), all histories of assignments and deletions", "why_tests_cant": "whether a computed value is current depends on the whole history of the instance", "anchors": ["binobj/fields/base.py: Field.__get__, Field.__set__, compute_value_for_dump", "binobj/structures.py: Struct.from_stream, __setitem__, __delitem__"]}
{"id": "C99", "title": "The order of keyword arguments and assignments does not matter", "statement": "Two instances of a Struct class whose fields have the same values behave alike, in whatever order the values were given: reading a field, `name in struct`, validate_contents(), len() and partial_dump() give the same result, to_dict() the same entries, and to_bytes()/to_stream() write the same bytes and succeed or fail alike. So the keyword arguments of the constructor can be permuted, two neighbouring assignments or deletions of different fields can be exchanged, and an instance with any history dumps like a fresh one built from its final values. (If both dumps fail before anything is written, the exception can be a different one: of several nested structs that cannot be converted, the one given first is reported.)", "quantifier": "all classes with distinct field names whose union deciders and user-defined field types look fields up by name, all values, all permutations of keywords, all pairs of histories that leave every field with the same value", "why_tests_cant": "The number of orders grows factorially and the number of histories is unbounded; a test fixes one order.", "anchors": ["binobj/structures.py:Struct.__init__", "binobj/structures.py:Struct.to_stream", "binobj/structures.py:Struct.to_dict", "binobj/structures.py:Struct._to_dict_whatever_possible", "binobj/structures.py:Struct.partial_dump", "binobj/structures.py:Struct.__len__"]}
{"id": "C100", "title": "Text with a byte order mark", "statement": "String and StringZ fields with an encoding that has a byte order mark (utf-16, utf-32, utf-8-sig) write one mark and then the text - a StringZ writes its terminator without a second mark - and the mark counts in size, in len() and in the size that a const gives. Everything written is read back as the same text, on machines of either byte order, consuming exactly the bytes written; on loading, a mark of the other byte order is obeyed. Such fields can stand in a struct that round-trips. Without a mark, String takes the data to be in the machine's byte order (or plain UTF-8) and a StringZ in utf-8-sig takes it to be UTF-8, but a StringZ in utf-16 or utf-32 always raises. Saving what was loaded can change the bytes (byte order, added mark).", "quantifier": "all strings, all three encodings on machines of either byte order, all positions in the stream, all surrounding bytes, all sizes", "why_tests_cant": "Tests load two literals in the byte order of the machine they run on; the incremental decoder has a state and gets the data byte by byte, so the outcome depends on where the mark and each character end.", "anchors": ["binobj/fields/stringlike.py:String", "binobj/fields/stringlike.py:String._encode_and_resize", "binobj/fields/stringlike.py:StringZ._do_load", "binobj/fields/stringlike.py:StringZ._do_dump", "binobj/helpers.py:iter_bytes"]}
{"id": "C101", "title": "A copy of a struct is independent of the original", "statement": "copy.deepcopy(s) and pickle.loads(pickle.dumps(s)) give a struct with the same contents, in which objects that occur several times (or contain themselves) do so again; it is dumped to the same bytes, has the same length and passes the same validation. Whatever is done later to the original or to anything it contains does not change the copy, and vice versa: parts of a program that give each other deep copies only never notice what the others do. copy.copy(s) must not let assignments to the copy change the original (false: the copy shares all values).", "quantifier": "all structs and all nestings of lists, dictionaries, byte arrays and structs in them, including shared and cyclic ones, all later histories of operations of all parts of the program", "why_tests_cant": "Independence is about all later operations on either of them and about every object at any depth; a test changes one field.", "anchors": ["binobj/structures.py:Struct.__init__", "binobj/structures.py:Struct.__setitem__", "binobj/fields/base.py:Field.__set__", "binobj/fields/base.py:Field.__get__", "binobj/fields/base.py:NOT_PRESENT"]}
{"id": "C102", "title": "Loading with validators and other callables that have a memory", "statement": "Whatever present=, validate=, deciders, halt checks, validator methods and struct validators do between calls (count, look at a clock, keep a register): a struct returned by from_stream has passed every one of its validators, with the values it actually has; present of each field is asked exactly once, in the order of the fields, shown exactly the fields before it, and obeyed. The calls made are exactly: per field present and, if it is there, its validate= functions; then per field its validate= functions and validator methods; then the struct validators. Callables that are functions leave everything as in the model without memory. (False: that validate= functions are called once per load, and that they are only ever given a deserialized value.)", "quantifier": "all classes, all stateful callables, all inputs and states of the world", "why_tests_cant": "Tests use pure validators, or count the calls for one class; which calls are made with which values on every path (absent, null, nested) is a statement about all classes and inputs.", "anchors": ["binobj/fields/base.py:Field.from_stream", "binobj/structures.py:Struct.from_stream", "binobj/structures.py:Struct.validate_contents", "binobj/fields/containers.py:Array._do_load", "binobj/fields/containers.py:Union._do_load"]}
{"id": "C103", "title": "None is written as the declared null or refused", "statement": "Dumping None: a field without null_value refuses it with UnserializableValueError and writes nothing; with null_value=b'...' exactly these bytes are written; with null_value=DEFAULT and a declared size exactly that many zero bytes; with DEFAULT on a field of no particular size it is refused. A struct holding None for a present field in which None has no representation is never dumped. The error is the same whether the field is dumped alone or in a struct (false: in a struct it is BuggyFieldImplementationError after an infinite recursion).", "quantifier": "all field types including containers and custom ones, all structs, values and contexts", "why_tests_cant": "Tests dump None through single fields; the interplay of null_value, size, default and the values of the other fields covers unboundedly many configurations, and the struct path behaves differently from the field path.", "anchors": ["binobj/fields/base.py:Field.to_stream", "binobj/fields/base.py:Field._get_null_repr", "binobj/fields/base.py:Field.get_expected_size", "binobj/errors.py:BuggyFieldImplementationError"]}
{"id": "C104", "title": "What was saved and loaded is equal", "statement": "from_bytes(bytes(s)).to_dict() == s.to_dict() (with the very same values, not merely equal ones), from_bytes(bytes(s)) == s.to_dict(), and if every field of s is set from_bytes(bytes(s)) == s in both directions, whenever these comparisons return; whatever follows in the stream. (False without the conditions: fields of s left to their defaults, discarded fields that are set, absent fields that are set, NaN, incomplete dictionaries for nested structs; and a struct of a class with an array counted by another field cannot be compared at all: FieldReferenceError.)", "quantifier": "all families of classes of round-trip schemas (nested, recursive, with counted arrays, optional, nullable and discarded fields, and unions), all values matching the schema, all positions and continuations of the stream", "why_tests_cant": "Tests compare a handful of structs; equality after a round trip combines default filling, recursive conversion to dictionaries and the lengths of structs at unbounded depth.", "anchors": ["binobj/structures.py:Struct.__eq__", "binobj/structures.py:Struct.to_dict", "binobj/structures.py:Struct.__len__", "binobj/structures.py:Struct.from_stream", "binobj/structures.py:Struct.to_stream", "binobj/fields/containers.py:Array.get_final_element_count"]}
{"id": "C105", "title": "The work of a load is in proportion to the bytes read", "statement": "If the elements of every array take at least one byte each, or the array has a fixed number of elements, then loading a struct or a field calls the stream's methods at most c*(k+1) times, where k is the number of bytes taken from the stream and c depends only on the classes, whatever the bytes are and whether the load succeeds or fails. So k hostile bytes cannot keep the loader busy for more than c*(k+1) calls. (False for an array counted by another field whose elements may be empty.)", "quantifier": "all class definitions of this kind, including recursive ones, all byte strings, start positions and contexts, successful and failing loads", "why_tests_cant": "It is a bound for all inputs: tests measure particular inputs, while a denial of service comes from the one that nobody tried.", "anchors": ["binobj/structures.py:Struct.from_stream", "binobj/fields/base.py:Field.from_stream", "binobj/fields/base.py:Field._read_exact_size", "binobj/fields/containers.py:Array._do_load", "binobj/fields/containers.py:Array.should_halt", "binobj/varints.py", "binobj/helpers.py:iter_bytes"]}
{"id": "C106", "title": "Records in a file are updated in place", "statement": "A file is divided into slots of equal size; records are put with file.seek(i*size) and to_stream, in any order and any number of times, on a disk that may fail at any seek or in the middle of any write. If putting a record into slot i returned, it is read back from there with from_stream, whatever was done before and whatever was put into other slots afterwards, including calls that failed half-way; a call never changes the bytes of another slot. This needs that the records fit: they do if the slot size is get_size() and no size is guessed from a default (false otherwise).", "quantifier": "all histories of puts of records of any classes into any slots, all failures of the disk, all initial contents", "why_tests_cant": "Histories and crash points are unbounded in number, and a corrupted neighbour is noticed only when it is read.", "anchors": ["binobj/structures.py:Struct.to_stream", "binobj/structures.py:Struct.from_stream", "binobj/structures.py:Struct.get_size", "binobj/fields/base.py:Field.to_stream"]}
{"id": "C107", "title": "What is written on one machine is read on another", "statement": "If every number in a program's classes has a declared byte order (endian given to the constructor, or for integers directly in a class body by Meta.argument_defaults, inherited or not), executing the class statements on a big-endian machine gives the same classes, or the same exception, as on a little-endian machine; hence what is dumped on one is loaded on the other. Without a declaration this is false: UInt16() takes the byte order of the machine, and Meta.argument_defaults does not reach floats and components of arrays.", "quantifier": "all programs of class statements built from the field constructors and @computes, validators and inheritance; all values that can be dumped", "why_tests_cant": "A test runs on one machine: files exchanged between machines of different byte order are never seen, and wrong numbers are read without an error.", "anchors": ["binobj/fields/numeric.py:Integer.__init__", "binobj/fields/numeric.py:Float.__init__", "binobj/fields/numeric.py:Timestamp.__init__", "binobj/fields/base.py:Field.bind_to_container", "binobj/structures.py:StructMetadata.from_class"]}
{"id": "C108", "title": "Checksums", "statement": "A field that is computed from other fields (@f.computes) and compared by a @validates_struct method: (1) every struct that from_stream returns has a checksum in its data that matches its values; (2) a new instance passes the check; (3) whatever was assigned or deleted before, a dump that succeeds writes the checksum of the current values; a stored checksum that is stale is refused with nothing written; (4) with discard=True the checksum follows also after a load; (5) if the bytes of a field of fixed size are overwritten, loading fails unless the function gives the same for both values; overwriting the checksum itself is always noticed. partial_load and get_field do not check.", "quantifier": "all classes with such a field, all functions of other fields, all values, all data, all overwritten bytes", "why_tests_cant": "A checksum is for data that no test contains; the order of computing, checking, storing and discarding matters for every history of an instance.", "anchors": ["binobj/fields/base.py:Field.computes", "binobj/fields/base.py:Field.compute_value_for_dump", "binobj/structures.py:Struct.validate_contents", "binobj/structures.py:Struct.from_stream", "binobj/structures.py:Struct.to_stream", "binobj/decorators.py:validates_struct"]}
{"id": "C109", "title": "Recursion depth is a matter of the classes, not of the data", "statement": "How deep calls nest while data is loaded is bounded by the class statements (the sum, over the classes, of the nesting of their field expressions): with a stack of that depth, from_stream of any class gives for all data what it gives with an unlimited stack, so no input, however long or malicious, makes it raise RecursionError. A class that was made to contain itself (by setting Nested.struct_class after the class statement) has no such bound: some input as long as the recursion limit raises RecursionError although it is in the format.", "quantifier": "all programs of class statements that define each class once, all byte strings, contexts and stack limits", "why_tests_cant": "Crashing inputs of this kind are deep, and a test suite can only try some depths.", "anchors": ["binobj/fields/base.py:Field.from_stream", "binobj/fields/containers.py:Array._do_load", "binobj/fields/containers.py:Nested._do_load", "binobj/fields/containers.py:Union._do_load", "binobj/structures.py:Struct.from_stream"]}
{"id": "C110", "title": "Adding optional fields keeps old and new data readable", "statement": "Let a class be extended again and again with fields at its end, each present only if the version number stored in the struct is at least the version in which it was added, and let the checks of each version accept absent new fields. Then data that one version of the program loads is loaded by all later versions up to the same place of the stream, with the same values, and with NOT_PRESENT for the later fields; data in an old format that a later version can load is loaded by the old version as well; and a struct with an old version number is dumped by the new program to exactly the bytes the old program dumps. (Without the condition on the checks the first is false: validators of a new field are run on old data, with NOT_PRESENT.)", "quantifier": "all sequences of versions of a class, all pairs of versions, all streams, contexts and values", "why_tests_cant": "Tests check a few files of released formats with the current program; compatibility is about all files and all pairs of program versions, including those to come.", "anchors": ["binobj/structures.py:Struct.from_stream", "binobj/structures.py:Struct.validate_contents", "binobj/structures.py:Struct.to_stream", "binobj/fields/base.py:Field.from_stream", "binobj/structures.py:StructMetadata.from_class"]}
{"id": "C111", "title": "partial_load reads what partial_dump wrote", "statement": "Let all fields of a class be always present, none discarded, and let the values that were set (and the defaults of the other fields) be ones the fields can represent without being told about other fields. If partial_dump(last_field) succeeds, then partial_load(last_field) on the bytes it wrote, wherever they are in a stream and whatever follows, returns a struct with exactly the fields up to last_field, in their order and with those values, and leaves the stream right after the bytes. If partial_dump() without last_field succeeds - it stops at the first field without a value - then partial_load() on exactly those bytes returns exactly the fields that were written and leaves the stream at their end, provided the fields without a value take at least one byte. (Not so with fields that present leaves out, which are written but not read, or with a missing field that takes no bytes, which is read although it was not written; and a field whose size is another field cannot be written at all.)", "quantifier": "all struct classes, sets of values that have been set, last_field or none, contexts, positions in a stream and following bytes", "why_tests_cant": "Tests dump and load a few partial structs; the place where the two functions stop depends on the class, on which values are set and on the bytes after them.", "anchors": ["binobj/structures.py:Struct.partial_dump", "binobj/structures.py:Struct.partial_load", "binobj/fields/base.py:Field.to_stream", "binobj/fields/base.py:Field.from_stream"]}
{"id": "C112", "title": "A nested struct and a payload of bytes are interchangeable on the wire", "statement": "Let two Struct classes differ in one field only: one has Nested(Inner), the other a Bytes field of the same name whose size is the number of bytes of the inner struct. Whatever the first class loads, the second loads from the same place up to the same place, with the same values for all other fields, and with a payload from which Inner.from_bytes loads the same inner struct; and whatever the second class loads with a payload that is a complete Inner, the first class loads with the same values and that inner struct; in both cases unless the class's own validators object. Dumping a message with inner in the nested field, or with inner.to_bytes() in the payload, writes the same bytes. Required: other fields do not look at the payload, and nothing in Inner looks outside its own bytes. (False if Inner reads to the end of the stream: the payload alone is complete, but the nested field takes the rest of the message too.)", "quantifier": "all pairs of such classes, all inner classes, all streams and positions, all values and contexts", "why_tests_cant": "Tests try a few messages; programs that route messages without decoding the payload rely on this for every payload and every message around it.", "anchors": ["binobj/fields/containers.py:Nested", "binobj/fields/stringlike.py:Bytes", "binobj/structures.py:Struct.from_stream", "binobj/structures.py:Struct.to_stream", "binobj/structures.py:Struct.to_dict"]}
{"id": "C113", "title": "A journal of records survives crashes", "statement": "A program appends records of one class to a file, with to_stream or with write(to_bytes()). Any write may fail after any number of bytes, the program may be stopped and started again at any time, and any truncate may fail. When it starts, and after an exception, the program loads records with from_stream until one cannot be loaded, and truncates the file to the end of the last one. Then at every moment the records that can be loaded from the file one after another are exactly: all records whose append returned, in order and unchanged, and of those whose append raised some, complete and in their place; never a part of a record, never one that nobody wrote. (False for to_stream with records that it refuses half-way: the bytes written before the error may be a record of their own.)", "quantifier": "all histories of appends, failures and restarts, all disks that write a prefix of what they are given, all classes of round-trip schemas in which no field reads to the end of the stream, all records", "why_tests_cant": "The crash points in a history of many records cannot be enumerated, and the recovery depends on no beginning of any record being loadable.", "anchors": ["binobj/structures.py:Struct.to_stream", "binobj/structures.py:Struct.to_bytes", "binobj/structures.py:Struct.from_stream"]}
{"id": "C114", "title": "Messages arrive in packets of any size", "statement": "A program sends messages of one class with to_stream one after another; the bytes arrive cut into packets of any sizes. The receiver appends each packet to a buffer, loads messages from it with from_stream until one cannot be loaded, and drops the bytes of those that were loaded. Then, at every moment, the messages returned so far are exactly those whose bytes have arrived completely, in order and unchanged, and the buffer holds the beginning of the next one, not all of it. How the bytes are cut makes no difference. When everything has arrived, every message has been returned and the buffer is empty. (False for classes with fields that read to the end of the stream.)", "quantifier": "all lists of messages, all ways to cut their bytes into packets (also empty ones), all moments, all classes of round-trip schemas in which no field reads to the end of the stream", "why_tests_cant": "There are exponentially many ways to cut a byte string, and each beginning of each message must be refused.", "anchors": ["binobj/structures.py:Struct.to_stream", "binobj/structures.py:Struct.from_stream"]}
{"id": "C115", "title": "Converting to another format and back loses nothing", "statement": "Two struct classes with the same field names, in any order and with any field types (sizes, byte orders, encodings), are two formats of the same data. Let t = s.to_dict() for an instance s of the first. If the second class, made from t, can be dumped at all, then the to_dict() of what it loads from these bytes has exactly the values of t, down to the last level and up to the order of keys, and the first class, made from that dictionary, writes exactly the bytes that s writes. (False for formats that pad strings.)", "quantifier": "all pairs of plain classes with the same field names, all instances whose values (scalars, lists, nested structs of any depth) match both classes, all positions in the stream", "why_tests_cant": "Pairs of formats and the values in them are unbounded; the claim combines the round trip of one class, rebuilding of another, and independence of the order of the keys.", "anchors": ["binobj/structures.py:Struct.to_dict", "binobj/structures.py:Struct.__init__", "binobj/structures.py:Struct.to_stream", "binobj/structures.py:Struct.from_stream"]}
{"id": "C116", "title": "A reader can choose the class by a tag in the common base", "statement": "Several classes are derived from one base class, which has a field that tells them apart. Their instances are written one after another to a stream. A reader that looks at this field with Base.get_field, picks the class from a table, and calls its from_stream, again and again, gets back all instances in order, each with its class and its values, and each load takes exactly the bytes of its struct. If a tag is not in the table, the stream is still where the struct begins.", "quantifier": "all base classes with a kept tag field that can be looked at by itself, all derived classes of round-trip schemas, all lists of instances, all surrounding bytes", "why_tests_cant": "The stream holds any number of structs of any mixture of classes; the claim combines get_field, inheritance and the round trip.", "anchors": ["binobj/structures.py:Struct.get_field", "binobj/structures.py:Struct.from_stream", "binobj/structures.py:StructMetadata.from_class"]}
{"id": "C117", "title": "Validators that change the struct", "statement": "A validator method may assign to the fields of the struct it checks. If any validator raises, to_stream writes nothing. Otherwise what is written is exactly the struct as the validators left it: the bytes the same class without validator methods writes for the values that are there at the end, computed fields being computed from these, and fields that were set staying as set. Whatever the validator methods assign, no field ends up set to a value its own validators reject. Loading consumes the same bytes whatever the validators do, and the bytes of a changed struct load as the values it was changed to. (False: every validator method accepts what is written — a later one may change a field that has been checked.)", "quantifier": "all struct classes, all validator methods (any programs that leave new values), all instances, all streams", "why_tests_cant": "Validators are arbitrary programs; tests only have validators that look.", "anchors": ["binobj/structures.py:Struct.validate_contents", "binobj/structures.py:Struct.to_stream", "binobj/structures.py:Struct.from_stream", "binobj/decorators.py:validates_struct", "binobj/fields/base.py:Field.__set__"]}
{"id": "C118", "title": "A program passes on what it does not know", "statement": "A file is a sequence of chunks: structs of an envelope class with a tag and a body of bytes, the body being the dump of a struct of some class. A program that knows the classes of some tags only reads the file chunk by chunk, parsing the bodies it knows with from_bytes(exact=True) and keeping the others as bytes. It gets all structs it knows with their values, in order, and each unknown body as it was written. If it writes everything back, the file is the same; if it changes what it knows, in whatever way, the unknown chunks still have the same bytes. (False if a newer program has extended a known class by a single byte: from_bytes(exact=True) does not notice, and the byte is lost.)", "quantifier": "all envelope classes and classes of contents that round-trip, all sequences of structs, all tables of known tags, all changes to the known chunks, all surrounding bytes", "why_tests_cant": "Files have any number of chunks of any mixture of known and unknown classes.", "anchors": ["binobj/structures.py:Struct.from_stream", "binobj/structures.py:Struct.from_bytes", "binobj/structures.py:Struct.to_bytes", "binobj/structures.py:Struct.to_stream"]}
{"id": "C119", "title": "How deep calls nest while a struct is written", "statement": "How deep calls nest while a struct is written is bounded by the class statements plus the nesting of the values in the instance and of the values the fields supply themselves (defaults, computed values, null values): with a stack of that depth, to_stream of any instance of any class writes for all values what it writes with an unlimited stack, so it does not raise RecursionError. What from_stream returned, whatever the data, can be written with twice the depth the class statements need. (The values do matter: a list nested as deep as the stack cannot be written by a field that accepts it, because to_dict descends into it.)", "quantifier": "all programs of class statements that define each class once, all instances whose values contain no iterators, all contexts and stack limits", "why_tests_cant": "Values can be nested arbitrarily deep and programs can consist of arbitrarily many classes.", "anchors": ["binobj/structures.py:Struct.to_stream", "binobj/structures.py:recursive_to_dicts", "binobj/fields/base.py:Field.to_stream", "binobj/fields/containers.py:Nested._do_dump", "binobj/fields/containers.py:Array._do_dump", "binobj/fields/containers.py:Union._do_dump"]}
{"id": "C120", "title": "Version numbers", "statement": "binobj.VersionInfo.from_string(str(v)) == v for every version number v (numbers not negative, suffix absent or not empty). Whatever text from_string accepts, it returns such a version number, so str() of the result is a normal form of the text. A missing patch number is 0, components after the third are ignored, and what follows the first dash is the suffix. v < w of two releases raises nothing and is the order by numbers; of two pre-releases, by the numbers and then by the text of the suffix. (Not so: the normalised form of a pre-release, such as 1.2.3rc1, which importlib.metadata reports, is refused with ValueError, so the library could not be imported from such a release; 1.2.3.dev4 is taken for 1.2.3; a release compared with a pre-release of the same numbers raises TypeError.)", "quantifier": "all version numbers, all texts, all tables of the non-ASCII digits and spaces", "why_tests_cant": "There are infinitely many version numbers and texts; the tests parse none.", "anchors": ["binobj/__init__.py:VersionInfo.from_string", "binobj/__init__.py:VersionInfo.__str__"]}
{"id": "C121", "title": "Files that end in an open array grow by appending", "statement": "Let the last field of a class be an array without a count (and the other fields know where they end). If a structure was loaded from a file, and bytes are appended from which the array alone loads the elements ys, then loading the longer file gives the structure as it was, with ys added at the end of the array: nothing that was there is read differently. In particular what the array writes for more elements can be appended. And dumping the structure with more elements in the array gives the old bytes followed by what the array writes for the new ones. If the array cannot be loaded from the appended bytes, e.g. because the last element was cut off, loading the longer file raises the same exception. (Not so for arrays with a count: appended elements go unnoticed.)", "quantifier": "all classes that end in an open array, all files, all appended bytes, all positions of the structure in the stream, all values of context", "why_tests_cant": "Both the file and what is appended are arbitrary; the array's loop decides at every byte position whether it has come to the end.", "anchors": ["binobj/fields/containers.py:Array._do_load", "binobj/fields/containers.py:Array.should_halt", "binobj/structures.py:Struct.from_stream"]}
{"id": "C122", "title": "Fields can be put together in a nested struct without changing the format", "statement": "Take consecutive fields out of a class, make a class of them, and put a Nested of that class in their place. Then what loads with the old class loads with the new one, from the same bytes and with the same values, which are now in the nested struct (unless validators of the new class object); and what loads with the new one loads with the old one. Two instances with the same data are dumped to the same bytes. The fields that are put together and the others must not refer to each other.", "quantifier": "all classes, all runs of consecutive fields, all streams and positions, all instances with the same data", "why_tests_cant": "The classes, the fields before, in and after the group, and the data are all arbitrary; a nested struct is dumped from its dictionary and loaded with a fresh set of loaded fields, so that it agrees with the flat class has to be shown field by field.", "anchors": ["binobj/fields/containers.py:Nested", "binobj/structures.py:Struct.from_stream", "binobj/structures.py:Struct.to_stream"]}
{"id": "C123", "title": "How a class was declared leaves no trace in its format", "statement": "Two programs whose classes have the same fields in the same order and the same validators behave the same, whatever else is recorded about them: positions (index, offset) of the fields, names of field types and explicitly given arguments, number of own fields, class options and size. They load, dump, partially load and dump, compare, measure, validate and convert to dictionaries the same, errors included. In particular a class may be split into a base class and a subclass without changing its format. (get_field is the exception: it goes to the recorded offset.)", "quantifier": "all pairs of programs that differ in this way only, all classes, streams, values, contexts; for splitting, all class bodies", "why_tests_cant": "That an attribute is never looked at, at any depth of nested structs, is a statement about all classes and inputs.", "anchors": ["binobj/fields/base.py:Field.bind_to_container", "binobj/structures.py:StructMetadata.from_class", "binobj/structures.py:Struct.get_field"]}
{"id": "C124", "title": "The names of the fields are not part of the format", "statement": "Rename the fields of a class, including the names in size and count arguments and in the callables. Then the new class writes the same bytes for the same values, loads the same values from the same bytes (under the new names) and leaves the stream at the same place, in full and partial loads and dumps. Where the old class raises an exception the new one raises the same, after writing or reading as much, except for the names of fields in it. Creating, validating, converting, reading and assigning work alike. So files written under the old names stay readable. A size that still refers to an old name breaks this.", "quantifier": "all classes, all injective renamings, all streams, values, contexts and callables that do with the new names what they did with the old; new names that are no attributes of Struct itself", "why_tests_cant": "Names are the keys of every dictionary the library builds, of validators, of references and of what callables see; that nothing but those lookups depends on them is a statement about all classes and renamings.", "anchors": ["binobj/structures.py:Struct.from_stream", "binobj/structures.py:Struct.to_stream", "binobj/structures.py:Struct.to_dict", "binobj/fields/base.py:Field.compute_value_for_dump", "binobj/fields/base.py:Field.get_expected_size", "binobj/fields/containers.py:Array.get_final_element_count"]}
{"id": "C125", "title": "An array of a fixed number of elements is as many fields in a row", "statement": "Take a class with several consecutive fields of the same type, and a class that has one array with that many elements of this type in their place. What loads as the one also loads as the other, from the same bytes and leaving the stream at the same place, with the values of the single fields as the elements of the list, in order; and instances of the two classes with the same values dump as the same bytes. So the declaration can be changed either way without changing the format. The other fields must not refer to the ones that become elements.", "quantifier": "all classes, all numbers of fields, all element types of declared size (numbers, timestamps, UUIDs, bytes, strings) and variable-length integers, with any validators, constants and defaults, all streams, contexts and values", "why_tests_cant": "It relates two different code paths (the field loop of the struct, the element loop of the array) for all classes, counts and contents; a test fixes one class and one file.", "anchors": ["binobj/fields/containers.py:Array._do_load", "binobj/fields/containers.py:Array._do_dump", "binobj/fields/containers.py:Array.should_halt", "binobj/structures.py:Struct.from_stream", "binobj/structures.py:Struct.to_stream"]}
{"id": "C126", "title": "Arrays of fixed length can be split in two and joined", "statement": "Take a class with an array of n + m elements, and a class with an array of n and one of m of the same elements in its place. What loads as the one also loads as the other, from the same bytes and leaving the stream at the same place, with the list cut after n elements; and instances of the two classes with the same values dump as the same bytes. The elements can be anything that is always there: numbers, strings, structs, arrays, unions. (Not so for arrays without a count: the first takes everything.)", "quantifier": "all classes, all n and m, all element types that do not look at the arrays, all streams, contexts and values", "why_tests_cant": "It is a statement about all counts, element types and contents, and about how far each of the loops reads.", "anchors": ["binobj/fields/containers.py:Array._do_load", "binobj/fields/containers.py:Array._do_dump", "binobj/fields/containers.py:Array.should_halt", "binobj/fields/containers.py:Array.get_final_element_count"]}
{"id": "C127", "title": "The order of the fields is only the order of their bytes", "statement": "Take two classes with the same fields in different orders. Every field of an instance has its bytes, and the dump of an instance of either class with the same values is these bytes, in the order of that class, whatever fields are computed from, or take their sizes from, which others. If fields do not look at other fields when they are loaded, nor read to the end of the stream, the same is true of loading: what a struct is loaded from is the bytes of its fields, and from these bytes in another order, anywhere in any file, the class with the fields in that order loads the same values. get_size is the same. (Not so for loading if a field takes its size from another one: only the order with the size first can be loaded.)", "quantifier": "all classes and all permutations of their fields, all values, contexts and surrounding bytes", "why_tests_cant": "It is a statement about all permutations, field types and values; tests check single layouts.", "anchors": ["binobj/structures.py:Struct.to_stream", "binobj/structures.py:Struct.from_stream", "binobj/structures.py:Struct.to_dict", "binobj/structures.py:StructMetadata.get_size"]}
{"id": "C128", "title": "The byte order of a number is only the order of its bytes", "statement": "Take a class and the same class with some of its numbers (integers, floats and timestamps of a declared size that have no null_value) in the other byte order. Every field of an instance has its bytes, and the dump of the same values by the second class is these bytes with those of the numbers concerned turned round, and nothing else changed. If the callables given for fields do not look into the stream, no null_value can be mistaken for the beginning of something else, and no field reads to the end of the stream, the same is true of loading: what a struct is loaded from is the bytes of its fields, and from these with those of the numbers concerned turned round, anywhere in any file, the second class loads the same values, also where sizes of fields are taken from these numbers. A class statement whose Meta.argument_defaults names the other byte order makes such a second class: exactly its own integer fields without an endian argument are turned round. (Not so for None: bytes given as null_value are written as they are.)", "quantifier": "all classes, all sets of their numbers, all values, contexts and surrounding bytes", "why_tests_cant": "It is a statement about all classes, numbers and values at once; tests compare single numbers.", "anchors": ["binobj/fields/numeric.py:Integer", "binobj/fields/numeric.py:Float", "binobj/fields/numeric.py:Timestamp", "binobj/helpers.py:read_int", "binobj/helpers.py:write_int", "binobj/structures.py:Struct.to_stream"]}
{"id": "C129", "title": "Signed and unsigned integers differ only in the numbers they can hold", "statement": "Take a class and the same class with some of its integers (of a declared size, without null_value, not discarded) signed where they were unsigned and the other way round. If the same values can be dumped by both classes, the bytes are the same. If they can be dumped by one, and the numbers these integers are dumped with can be held signed and unsigned, they can be dumped by the other. If the numbers one class loads from these integers are such that they can be held signed and unsigned, the other class loads the same values from the same bytes and stops at the same place, also where sizes of other fields are taken from these integers. (Not so for other numbers: the byte 255 is -1 to an Int8 and 255 to a UInt8, and each of these numbers can be dumped by one of them only.)", "quantifier": "all classes, all sets of their integers, all values, streams and contexts", "why_tests_cant": "It is a statement about all classes and numbers at once; tests compare single numbers.", "anchors": ["binobj/fields/numeric.py:Integer", "binobj/helpers.py:read_int", "binobj/helpers.py:write_int", "binobj/structures.py:Struct.to_stream", "binobj/structures.py:Struct.from_stream"]}
{"id": "C130", "title": "A text may be given a wider encoding", "statement": "Take a class and the same class with another encoding for some of its String and StringZ fields (without null_value), where the other encoding has the same bytes for every character of the first, as UTF-8, ISO 8859-1 and the usual code pages have for the characters of ASCII. Whatever the first class can dump, the second dumps to the same bytes; whatever the first can load, the second loads to the same values, stopping at the same place, unless its own validators reject them. (An encoding with more characters is not enough: UTF-8 has other bytes for é than ISO 8859-1, and cannot load what was dumped with it.)", "quantifier": "all classes, all sets of their texts, all pairs of encodings, all values, streams and contexts", "why_tests_cant": "It is a statement about all texts and encodings at once; tests compare single texts in one or two encodings.", "anchors": ["binobj/fields/stringlike.py:String", "binobj/fields/stringlike.py:StringZ", "binobj/fields/base.py:Field.get_expected_size", "binobj/structures.py:Struct.to_stream", "binobj/structures.py:Struct.from_stream"]}
