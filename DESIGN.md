# Formal model of dargueta/binobj — design

Subject: the Python library in `/repo` (binobj), read as text.  Nothing from `/repo` is executed.
Everything below is Lean 4 (4.33.0), built with `lake build` in `/verif/lean`.

## 1. Shape of the model

The model is a set of total, computable Lean functions that follow the Python functions branch by
branch.  Every definition cites the file and lines it models.

* **Bytes / streams** (`Verif/Py/Basic.lean`).  `Bytes = List UInt8`.  A readable stream is
  `Stream = {data, pos}` with `io.BytesIO` semantics: `read(n)` with `n < 0` reads to the end, short
  reads return what is there, reading beyond the end returns `b""`, `seek` may go beyond the end.
* **Exceptions are values.**  `Err` has one constructor per exception class that matters, and
  predicates mirror the class hierarchy of `binobj/errors.py` (so that `except X` clauses catch exactly
  the right ones).
* **Readers** return `Except Err α × Stream`: the state of the stream survives an exception, which is
  what makes statements about stream position on error paths meaningful.
* **Writers** return `W = Bytes × Except Err Unit`: the bytes that reached the caller's stream before the
  call returned or raised.  All-or-nothing and prefix properties are therefore statements with content.
* **Values** are a first-order inductive type `Value` (ints, bytes, str as code points, floats as bit
  patterns, UUIDs, datetimes, lists, unsized iterables, dicts, struct instances, and the sentinels
  `None`, `UNDEFINED`, `DEFAULT`, `NOT_PRESENT`).
* **Fields** are data (`Field`): the attributes stored by `Field.__init__`/`bind_to_container` plus a `Kind`
  per field class; user callbacks (`present`, `computes`, validators, `halt_check`, deciders, factories, whole
  user-defined field classes) are arbitrary Lean functions, so theorems quantify over all of them.
* **Classes**: a class table `Γ : String → Option StructDesc`; a struct instance is its class name and its
  `__values__` dict.
* **Recursion**: mutually recursive Python methods become functions with a fuel argument that is decremented
  at every call.  Running out of fuel is a distinguished result `outOfFuel` that no `except` clause catches.
  "Python returns/raises r" is "for some fuel the result is r and is not `outOfFuel`"; monotonicity in fuel is
  proved, so the result is unique.  "Python does not terminate" is "`outOfFuel` for every fuel".

### Modules

| module | models |
|---|---|
| `Verif/Py/Basic` | BytesIO, int.to_bytes/from_bytes, bit_length, dicts, errors.py |
| `Verif/Model/VarInt` | varints.py |
| `Verif/Model/Helpers` | helpers.py |
| `Verif/Model/Codec` | text codecs used by String/StringZ, incl. incremental decoding |
| `Verif/Model/Bom` | String and StringZ with encodings that have a byte order mark (utf-16, utf-32, utf-8-sig) |
| `Verif/Model/UUID` | uuid.UUID conversions used by UUID4 |
| `Verif/Model/Float` | struct.pack/unpack for 'e','f','d' (IEEE 754, round-half-even) |
| `Verif/Model/Timestamp` | Timestamp arithmetic incl. the float operations |
| `Verif/Model/LocalTime` | naive Timestamps in an arbitrary local time zone, with CPython's `_fromtimestamp` and `_mktime` |
| `Verif/Model/Value`, `Field` | values; the attributes of fields, and the methods every field class inherits (fields/base.py) |
| `Verif/Model/Struct` | class descriptions, struct instances and their item interface, equality (structures.py) |
| `Verif/Model/Dump`, `Load` | the mutually recursive dump and load methods of fields/*.py and structures.py |
| `Verif/Model/Init` | Field.__new__/__init__, keyword arguments of each field class |
| `Verif/Model/Class` | class construction: StructMetadata.from_class, bind_to_container, pep526.dataclass |
| `Verif/Model/Equality` | `len(struct)` and Python's `==` |
| `Verif/Model/Proxy` | StructMappingProxy and MutableStructMappingProxy |
| `Verif/Model/Sink` | to_stream and partial_dump on streams that may fail |
| `Verif/Model/Source` | from_stream, partial_load and get_field on streams that may fail or give short reads |
| `Verif/Model/Depth` | loading with a limit on how deep calls nest |
| `Verif/Model/CeilFloat` | the VLQ and compact encoders with the float division of varints.py:75, 131 |
| `Verif/Model/Iterator` | dumping, len and == with one-shot iterators as stateful objects |
| `Verif/Model/LiveLoad` | from_stream of fields and structs with `present`, `validate=`, deciders, halt checks and validators as stateful programs |
| `Verif/Model/Live` | validation, to_dict and to_stream with compute functions, `present` and validator methods as stateful programs |
| `Verif/Model/Modify` | validation, to_stream and from_stream with validator methods that change the struct |
| `Verif/Model/ClassHeap` | the same with field objects on a heap, to speak about aliasing between classes |
| `Verif/Model/Objects` | struct instances, lists, dictionaries and byte arrays as objects in a store, to speak about aliasing between instances |
| `Verif/Model/Copy` | `copy.copy`, `copy.deepcopy` and `pickle` over that store |
| `Verif/Model/Version` | `VersionInfo` of `__init__.py`, with `int()`, `str.split` and `str.partition` |
| `Verif/Spec/*` | small independent specifications used in theorem statements |
| `Verif/Proofs/*` | helper lemmas |
| `Verif/Props/*` | the property theorems, named `Cnn_…`, each with `example`s showing it is not vacuous |
| `Verif/Conformance/*` | the unit tests of `/repo/tests` replayed on the model (see below) |

### Conformance

The model is written by hand, so nothing but reading connects it to the code.  As a check on the reading, `Verif/Conformance` replays the
test suite of the repository on the model: each assertion of a test becomes an `example` that the kernel evaluates, with the inputs and
expected outputs of the test.  These are tests, not proofs (the classes of the example programs are also what C97 is about, which
proves for all values what those tests check for one); a slip in the model that the repository's own tests
would notice makes the build fail.  Each file says which tests are left out: texts of messages and warnings, arguments of a wrong Python
type that the model's types exclude, structs with an `__init__` of their own, mocks, copying of sentinels.  The large inputs (a bitmap, a sound file) are cut short.

## 2. Known simplifications

* Callbacks are pure and deterministic, except in `Model/Live` (C95) and `Model/LiveLoad` (C102), where compute functions, `present`,
  validators, deciders and halt checks are arbitrary stateful programs; validators cannot mutate the struct (except in Model/Modify), `present`/deciders/`halt_check` cannot leave the
  stream pointer moved.  `halt_check` may change the list of values it is given, as its documentation allows.
* Ill-typed values (e.g. a `str` given to `Bytes`) raise `typeErr`; in Python this may be `TypeError` or
  `AttributeError`.  `bool` is not distinguished from `int`, `bytearray` not from `bytes`.
* Warnings (DeprecationWarning) are not modelled.  `copy.deepcopy(init_kwargs)` is the identity on values.
* `math.ceil(n / 7)` is taken as exact in `Model/VarInt`; `Model/CeilFloat` has the float division, and C91 proves that it makes no
  difference for integers of fewer than 2**52 bits.
* A class body is modelled by its fields and validator methods.  Other attributes that hide a field of the base class or a method of `Struct` are not modelled, nor are fields named like an attribute of `Struct` (a field called `to_dict` hides the method), nor are callables as the class attribute of an annotated name.
* Iterators yield the same items every time, except in `Model/Iterator` (C90), where they are used up and which shows that this makes no
  difference to the first operation on an instance.
* Memory is not modelled, nor is the interpreter's recursion limit, except in `Model/Depth` (C109), where loading is limited and which shows
  that the limit makes no difference to classes made by class statements.  (While dumping, the fuel is the limit: C119.)
* The caller's stream does not itself fail (no I/O errors, no short reads), except in `Model/Sink` and `Model/Source` (C78, C86), where the stream is arbitrary.
* The local time zone, to which naive Timestamps refer, is UTC, except in `Model/LocalTime` (C88), where it is arbitrary and which shows that
  it makes no difference: in every zone, naive datetimes are loaded and dumped as the moments of the main model.

## 3. Plan per property

Status is in `MANIFEST.json`; this section says how each is expressed.

* **C01–C04** round trips: `decode ⟨pre ++ encode v ++ post, |pre|⟩ = (ok v, ⟨…, |pre|+|encode v|⟩)`, by induction on
  the groups of 7 bits.
* **C05** encoders' output is `init ++ [last]` with high bits set on `init` and clear on `last`; prefix-freeness follows.
* **C06** minimality: if the decoder maps `bs` to `v` then `|encode v| ≤ |bs|`; from the value specification of C07.
* **C07** decoders vs. an independent base-128 specification `Spec/VarInt`, on arbitrary streams.
* **C08, C09** decision logic of encoders / `VariableLengthInteger._do_dump`.
* **C10–C12** `int.to_bytes/from_bytes` defined positionally; round trip, range iff, reversal.
* **C13** per field kind: short stream ⇒ `UnexpectedEOFError`.
* **C14, C15** by case analysis on `Field.to_stream`; uniform in the field kind, including user-defined.
* **C16, C17, C18, C20, C21** decision logic of `Field.from_stream` / `to_stream` / `compute_value_for_dump`.
* **C19** refuted by a witness (constructor argument overrides const); partial: without an explicitly stored value.
* **C22** refuted (off-by-one); partial: correct except for exactly one trailing byte, iff characterisation.
* **C23** by inspection of every path.
* **C24** refuted in general (conditional fields, size references, wrong fixed sizes); partial theorem under explicit layout hypotheses.
* **C25** class construction model + dump layout.
* **C26, C40** induction over fields / elements / nesting (fuel) from per-kind round trips. C26 then instantiated for whole classes of schemas:
  plain ones (`Spec/Schema.lean`) and ones with conditional and nullable fields, discarded constants and padding, computed tags and checks on plain
  fields (`Spec/Optional.lean`), also recursive ones such as linked lists.
* **C27** load-then-dump for canonical kinds; conditional fields whose `present` depends on earlier fields, nullable fields with one encoding of
  `None` (`OneNull`), unions whose two deciders depend on the same earlier fields (`DecidedBy`); discarded constants fall back on their defaults (`Magic`).
* **C28, C29** loop invariant of `Struct.to_stream`.
* **C30, C31** refuted by witnesses; partial under layout hypotheses.
* **C32, C33, C38** decision logic of compute_value_for_dump; C33 and C38 refuted by witnesses + partial.
* **C34, C35, C36** operation histories over the struct's item interface, refinement to a finite map.
* **C37** struct load.
* **C39, C41** loop invariants of array load/dump, divergence as "outOfFuel for all fuel".
* **C42, C43, C44** unfolding equations with independent right-hand sides; C44 refuted + partial.
* **C45–C49, C51** codec laws, StringZ loop; C47, C48 refuted + partial.  Single-byte code pages are `charmapCodec table` for an arbitrary
  table; those without duplicates are `Supported`, so everything said about text holds for them.
* **C50** hex/byte-order lemmas for all n < 2^128.
* **C52, C53** soft-float model; C53 refuted.
* **C54, C55** soft-float + datetime arithmetic; C54 refuted for naive datetimes in the first day of the year 1, proved for all others; C55 refuted by witnesses; partial: error bounds, and the windows between powers of two in which rounding recovers the integer.
* **C56–C58** class construction; C57 refuted by witness + partial.
* **C59** equality.  **C60, C61, C62** partial_dump / partial_load / init_kwargs.
* **C63** locality theorem by induction on fuel.  **C64** induction.  **C65** refuted (negative read) + partial.
* **C66** refuted by witnesses (text, UUIDs in text form, timestamps raise `ValueError`s); otherwise proved for classes whose
  references resolve (`Robust`), parametrised over the exceptions the conversions may raise, by induction on fuel.
* **C67** refuted for classes that contain themselves before any byte is read; otherwise proved by induction on the bytes left,
  then on a rank of the classes (`Guarded`).
* **C68** the constructors as functions from keyword arguments to a field or an exception (`Model/Init`); one relation `Constructed`
  over all of them, then by cases.
* **C69** induction over the list of structs, from the round trip of one struct between arbitrary other bytes (C26).
* **C70** both dumps load (C26); loading is a function, so they load to the same struct and end at the same place.
* **C71** a syntactic-semantic notion of a field that does not look at a set `S` of fields (`Unaware`), preserved by every stage of dumping
  (reading a field, `_to_dict_whatever_possible`, `to_dict`, computing values, writing); two runs on instances that agree outside `S`.
* **C72** `Extends b d own`: fields appended, validators kept; derived for every `Program` from `fromClass`/`pep526Dataclass`. Loading: the
  derivation of the loads of `d` is split after the fields of `b`; validators of `b` see the same view. Dumping: the two-run agreement of C71,
  generalized to two classes.
* **C73** the proxies with the mixin methods they inherit from `collections.abc` and the `__eq__` that `@dataclass` generates; histories of proxy
  operations are reduced to histories of item operations (C35). Refuted: `len` (bytes, not keys), `in` (fields with a default, or raises),
  `setdefault` (never sets), `==` with a dict (always false).
* **C74** a parametricity statement: for every function `φ` on contexts, running a program with the context `φ c` equals running, with the
  context `c`, the program whose callables apply `φ` to what they receive (`Spec/Context.lean`). Induction on the fuel over dumps, loads, `==`
  and sizes. Refuted: `to_dict` (hence every dump) asks `present` with `None`, so context-dependent fields vanish; null values are serialized
  with `None`. Proved for every program if `φ None = None`, and for all `φ` for fields that do not care about that `None`.
* **C75** the fuelled functions settle: some fuel gives a result other than `outOfFuel`, and all larger fuels give the same. The hypothesis is
  `Founded` (`Spec/Halting.lean`): classes have ranks, and a field that supplies structs itself (default, computed or null value) supplies and
  refers to classes of lower rank only; the values stored in the instance are unrestricted. Induction on the depth of iterators, then the
  rank, then the size of the converted value, then the field. Refuted in general: a nested field whose default is filled in again from the
  same default.
* **C76** dual of C66. `OfType` (`Spec/DumpErrors.lean`) says which values have the right type, `Dumpable` which fields resolve their references;
  induction on the fuel over fields and structs, with the invariant that every earlier integer field has a number in the dictionary (a
  `None` there would have failed before). `to_dict` keeps types; `datetime.timestamp()` never overflows on the range of `datetime`. Refuted
  in general: `UnicodeEncodeError`, `OverflowError` of narrow floats, `KeyError` from compute functions of nested structs, `TypeError` when
  `DEFAULT` was assigned to a size field, `FieldReferenceError` for a discarded count, `TypeError` for struct instances an iterator yields to
  unions. A union's value has to have the type of every choice the decider may take, for every `all` that agrees with the struct's plain fields
  (`TagsKept`, which `to_dict` is proved to guarantee).
* **C77** `SameFields` (`Spec/Annotate.lean`) relates type hints to assignments; the two collecting loops are compared step by step, then dump and load
  depend on a class only through its fields and validators. Refuted: field validators are not run by `validate_contents` of annotated classes,
  `@validates` raises KeyError there, annotated subclasses of annotated classes are rejected, defaults of field instances and nested
  structs and `Optional` of nested structs are ignored.  With a base class the two classes differ in index and offset of the added fields; `Proofs/Placed.lean` shows that neither matters for
  dumping and loading (`unplaced`), then as before.
* **C78** `Model/Sink.lean` repeats the outer loops over an arbitrary stream (`write` is a parameter; a field calls it once). `Follows` relates a run on such a
  stream to the run on BytesIO; induction over the fields. Torn dumps: locality (C63) and the round trip (C26) together make the set of dumps
  prefix-free among loadable inputs; nullable fields look ahead without harm if the bytes for `None` can also be read as a value. Refuted: raw streams
  whose `write` takes part of a chunk without raising, fields that read to the end, null representations that begin with a value.
* **C79** `halt_check` is a function that may replace the list. `StopsAt`/`StopsBefore` say what a sentinel check does, without saying how. Induction over the
  elements for the round trip, over the iterations for the converse. Refuted: with a check that removes the sentinel, dumping what was loaded loses it.
* **C80** The round trip of C26 carries a predicate on what was loaded: converted to dictionaries, it is dumped as the bytes it came from, next to any
  values that have the same numbers and the same plain fields. `present` and the deciders of unions depend on plain fields only, so they say the
  same of the loaded struct, of its `to_dict` and of the dictionary a nested struct is dumped from. Induction on the values.
* **C81** Induction on the fuel with an invariant on exceptions: `Field.from_stream` relabels what `_do_load` raises with its own name, the loop of
  `Struct.from_stream` passes it on, and offsets and sizes are untouched on the way up.  The stream never moves back (C63), so an offset reported
  inside lies after the beginning.
* **C82** A relation between streams (same bytes ahead, positions differ by δ) kept by every read, seek and peek; results are equal and exceptions equal
  up to the offset.  Induction on the fuel over `Field.from_stream`, `_do_load`, `Struct.from_stream`.
* **C83** The fields before: locality (C63).  The fields after: position independence (C82) together with independence of the field's value (`ReadsOff`,
  as in C62), by induction over the remaining fields.  Fixed-size fields: C24's `Rigid`.
* **C84** A second model in which fields hold references into a store of mutable objects (`Model/Objects`).  `to_dict` only appends to the store, and an
  invariant says what the appended objects refer to: one another, immutables, old `bytearray`s.  Contents depend on reachable objects only.  The contents
  of the result are related to the value model's `structToDict` by a simulation.
* **C85** Over the store of `Model/Objects`: each operation changes only objects reachable from the party's variables and lets them refer only to such objects
  and new ones (`Polite`); polite steps keep the parties' reachable sets disjoint.  Induction on the history.
* **C86** The loading code again, over an arbitrary stream given by its methods (`Model/Source`).  A simulation relation between a run on such a stream and
  the run on a `BytesIO` with the same bytes: same outcome and position, or one of the stream's exceptions (with short reads: or `UnexpectedEOFError`).
* **C87** The loading code over a `BytesIO` that records the furthest byte it was ever asked for (`metered`, an instance of `Model/Source`).  Invariant by
  induction over the loaders: a successful step moves forwards, and raises the mark at most to where it ends. Refuted for long null representations,
  arrays without count, negative sizes, and for streams without `tell`.
* **C88** the zone is an arbitrary function from moments to offsets (`Model/LocalTime`); CPython's search for the moment of a wall clock reading (`_mktime`) and its computation of `fold` are modelled statement by statement; case analysis on the position relative to the change of the clocks. Refuted for datetimes that clocks skip, and for order.
* **C89** rounding to nearest even is monotone (`Proofs/Order`: `roundMag_mono` from nearness and the tie rule), and so are all steps that timestamps go through (conversion to a float, division by the resolution, splitting into seconds and microseconds, multiplication, truncation); integers by induction on the bytes. Naive timestamps do not keep the order in zones whose clocks are put back (`C88_order_refuted`); little-endian and signed integers do not sort as bytes (`C89_other_integers_refuted`).
* **C90** looking changes nothing: `Model/Iterator` threads the state of all one-shot iterators through dumping, `partial_dump`, `len` and `==`; the
  payload of `Value.iter` is there the name of an iterator object. Without iterators every sequence of looks shows what each look shows on its own in
  the main model. With iterators, none of them stored twice, the first dump, `partial_dump` or `len` shows what the main model says about their
  items (simulation by induction on the fuel, with a frame condition: only the instance's own iterators are advanced), which justifies that the rest of
  the model treats iterators as lists. Refuted for the second look: an iterator that was dumped is empty, `len(struct)` and `struct == other` dump
  fields of unknown size to measure them, and an iterator shared by two fields is empty for the second.
* **C91** Model the division as CPython does it (correctly rounded binary64 quotient of two integers) and `math.ceil` on the decoded float; prove by an error bound (half a unit in the last place is less than a seventh below 2**50) and exactness for multiples of 7 that the ceiling is that of the exact quotient; transfer C01, C04 and C06 to the encoders with the float division. A concrete number of 7 * 2**53 + 1 bits shows that some bound is needed.
* **C92** Scenes: a store of objects (Model/Objects) with variables and a list of outcomes for each part; a program maps what a part sees (contents to every depth, exceptions, identities) to its next command; a schedule is a list of parts. Proved by a simulation up to renaming of locations (Proofs/Rename: every command gives corresponding outcomes on corresponding stores), with C85's frame property for the turns of the others. Commands are atomic: preemption inside an operation of the library is not modelled (no operation changes anything but its own objects).
* **C93** `structToDict` is idempotent: a struct that stores a complete dictionary yields it back (Proofs/Rebuild: each loop of `to_dict` succeeds and keeps order and values), `recursive_to_dicts` is idempotent at the same fuel, and `to_dict()` is `to_dict(keep_discardable=True)` without the discarded fields. Hence dumping, which uses only validation and `to_dict()`, gives the same. Refuted without the side conditions: validators that look into nested structs, `present` callables that ask whether a field was set.
* **C94** (what is loaded is not much bigger than what was read): `Value.weight` counts objects, characters, bytes and bytes of numbers (`Spec/Memory.lean`). `Thrifty` gives each field a level: arrays are one level above their elements and have a fixed count or elements that take at least a byte (`Eats`, from C67); structs have the level of their class; a class's fields are below it, unless a field that takes a byte comes first. The proof is by induction on fuel with an amortised invariant (`Pays`): a level-ℓ load that reads nothing weighs at most `(M+1)^(ℓ+1)`; one that reads c > 0 bytes has credit left for each level above it, which pays for one self-reference. Result: weight ≤ `(L+2)(M+1)^(L+2)` per byte. Refuted without the condition: `Array(Bytes(size=0), count=n)` with a VLQ count. Partial: memory used by loads that fail, arrays with a custom halt check, and counts bounded by the range of a fixed-size integer are not covered.
* **C95** Model/Live.lean: validate_contents, to_dict, to_stream once more with compute functions, `present` and validator methods as state-passing programs that read a live view of the struct. C95_snapshot_partial: after validation one dictionary `all` is made, and what is written is what `Cls(**all)` writes, no compute function being called any more except those of discarded fields, which must be functions. C95_deterministic: for callables that are functions (or whose fields are set) it is the model of all other claims. C95_computed_from_refuted: a computed field may differ from what it was computed from, since `self[name]` computes the other field anew. C95_validated_refuted: validators see other values than are written.
* **C96** On Model/Live with the number of calls as the state of the world: compute functions that read a list of fields and return a value (`Formula`), `calls` = the calls made by reading a field (one, and those for each field it reads). C96_calls: a dump makes exactly twice the calls of reading every field once (validate_contents, then to_dict; nothing while writing). C96_twice_partial: if compute functions read only fields with values, each is called exactly twice. C96_exponential_refuted: n + 1 fields that each read their predecessor twice make at least 2^(n+1) calls, since reading a computed field computes it anew.
* **C97** Spec/Formats states the bytes of each format directly (`le k i` is k bytes of two's complement, least significant first) and gives the six classes as explicit descriptions; C97_*_class(es): these are what the model of the class statement makes of the example programs of Conformance/Examples (by computation). C97_wav_data, C97_wav_format, C97_wav_header, C97_bmp, C97_fat, C97_cpio: for all values in range, the dump is the concatenation of the listed parts and loading it from anywhere in a stream gives the listed values. C97_reload: all classes are canonical, so whatever can be loaded is saved as the same bytes (by C27_load_dump_partial). C97_wav_too_long, C97_cpio_name_too_long: what is written before the error, and the error.
* **C98** Histories of assignments and deletions (Spec/History, as in C34/C35). C98_follows_partial: if no value was stored for the computed field at the beginning, or it was deleted at some time, a successful dump writes what the compute function makes of the values at that moment. Refuted for loaded instances: from_stream stores the loaded value, __set__ refuses to change it, and nothing but `del` removes it. C98_loaded_stays: in every history without that deletion, a successful dump writes the loaded value. C98_wav_rate_refuted, C98_wav_data_refuted: the library's own WAV example, for all values: with another sampling rate the old byte rate is written without any error; with audio of another length ValueSizeError is raised after the old size was written. C98_wav_rate_deleted: after `del chunk["byte_rate"]` it is right.
* **C99** (order of keywords and assignments).  `SameValues a b`: equal lookups (`Spec/Reorder.lean`).  User callables see a `View` (lookup and membership), which the order does not change; `to_dict` gives dictionaries with the same lookups; every size, count and reference is a lookup, so fields dump alike (`ByName` asks it of union deciders and user-defined types, which get the dictionary itself).  Keywords, histories (through C35) and exchanges are corollaries.  Not covered: nested structs inside the values that differ in order themselves.  `C99_same_exception_refuted`: the exception can depend on the order.
* **C100** (byte order marks).  `Model/Bom.lean`: CPython's three codecs with a mark, whole and incremental (a decoder with a state: nothing seen yet, or the codec the mark announced); the fields repeat the methods of stringlike.py with them, as leaves with their own `_do_dump`/`_do_load`.  After the mark the decoder is that of the announced codec, so the loop of StringZ becomes the one already proved (C45).  `Announces enc m k` is the table of marks.  C100_stringz_needs_mark and C100_same_text_refuted: StringZ refuses UTF-16/32 text without a mark that String accepts.
* **C101** (copies).  `Model/Copy.lean` on the store of `Model/Objects`: a deep copy is a second copy of the object graph at new positions; Struct defines neither `__copy__` nor `__deepcopy__`, so a shallow copy shares `__values__`, described as another reference to the same instance.  Contents and paths (`follow`) agree by induction on depth and path length; independence extends the histories of C85 by the deed of giving a deep copy to another part of the program.
* **C102** (stateful callables on load).  `Model/LiveLoad.lean`: `from_stream` of all fields and structs once more with `present`, `validate=`, deciders, halt checks and validators as state-passing programs, attached to field objects by their path in the field.  C102_deterministic: for functions it is `Model/Load` (induction on fuel).  C102_validated, C102_presence: inversion of a successful run.  C102_calls: callables that keep a record of their calls; the record grows by exactly the listed calls (classes without fields inside fields).  Two expectations are refuted: validators run twice, and are shown NOT_PRESENT.
* **C103** (dumping None) On Model/Dump: cases of `_get_null_repr` for every field kind (C103_not_nullable, _null_bytes, _zeroes, _alone, _in_struct); C103_struct_refuses by the description of successful dumps (C38).  C103_same_error_refuted: `Person(alias=None)` with `alias = StringZ(null_value=DEFAULT)`.
* **C104** (reloaded structs are equal) Spec/Reload; on Model/Struct (`__eq__`, `to_dict`) and the round trip theorem of C26.  The loaded values convert to the same plain dictionaries as the saved ones (by induction over the values, Proofs/Reload); the comparison then follows from the characterisation of `==` (C59).  The same for classes with optional, nullable and discarded fields and unions in Props/ReloadOptional (from the proof of C80).  Six refutations show the conditions to be needed.
* **C105** (work of a load) The load over an arbitrary stream (Model/Source) is run on a `BytesIO` that counts calls.  A potential argument: a load that takes k bytes makes at most A + B*k calls, by induction over the fuel with a level for every class (classes may contain themselves after a field that takes a byte); C105_struct, _field, _bytes.  C105_count_refuted: `n = VariableLengthInteger; items = Array(Bytes(size=0), count=n)`.
* **C106** (records in place) Spec/Table: an arbitrary disk with `seek` and `write` (a failing `write` may have written a prefix); dumps on it write a prefix of the dump on a `BytesIO` over what was there (Proofs/Table); with C26 the record is read back.  C106_read_back, _other_slots, _get_size (every record of a class with a fixed size fits, also one that fails half-way, by C29).  C106_guessed_refuted: `s = StringZ(default='ab')`.
* **C107** (portability) Spec/Portable: the text of class statements (`FieldExpr`, `ClassSource`) and its execution with a given `sys.byteorder`; `PortableProgram` says that each number has a declared order.  Executions on two machines give fields that differ at most in an order which `bind_to_container` replaces (Proofs/Portable).  C107_same_classes, _exchange (with C26).  C107_undeclared_refuted, _components_refuted, _floats_refuted.
* **C108** (checksums) Spec/Checksum: `Checksummed d f fn refs`.  C108_loaded, _fresh, _written (with C32), _stale_refused, _discarded_written, _detects (with C83); C108_partial_refuted for `partial_load` and `get_field`.
* **C109** (recursion depth) Model/Depth: the load functions with a limit on nested calls; Spec/Depth: `programDepth`.  C109_deeper_stack by the invariant that each class of a program nests at most the sum so far; C109_unlimited; C109_recursive_refuted for a class that contains itself.
* **C110** (versions of a format) Spec/Versions: `Versions`, `Since`, `AcceptsAbsent`, `newFields`.  C110_new_reads_old by induction on the number of versions between, from: absent fields are loaded from nothing (`loads_absent`); C110_old_reads_new and C110_same_dump from the lemmas of C72 and that absent fields read and write nothing; C110_accepts gives a condition under which the checks accept old data; C110_validator_refuted: a validator on a new field.
* **C111** (partial round trip) Spec/PartialRoundTrip: `PartialValue`, `DictShows`, `FailsAtEnd`, `TakesAByte`.  C111_last_field and C111_up_to_missing by induction on the fields written (`Wrote`, from C60), each read back by `proper_restores` (C26) with no other fields known; the loops of `partial_load` from C61; C111_takes_a_byte from C13 and the decoders at the end of the data; C111_plain_… for the classes of C26_plain_round_trip, with nested structs, also in lists, given as dictionaries or as instances (`schema_returns`, by induction on `Typed`).  Refuted for fields that are left out, fields of no bytes, sizes given by other fields.
* **C112** (envelopes) Spec/Envelope: `OneFieldApart`, `LoadsUnlessRejected`, `Rebuilds`.  One field may be loaded in the place of another that ends at the same place (`swap_load`, from `ReadsOff`); the bytes of the inner struct are cut out of the stream with C63 and moved to its beginning with C82, and the other way round; the dump from C71's two runs of to_dict (`swap_dump`), C42 and C93 (the nested struct is dumped from its dictionary).  C112_to_end_refuted: `Bytes(size=-1)` inside.
* **C113** (journals) Spec/Journal: the client program (`journalRun`, `scanRecords`), `Journaling` files, `KeptIn`.  Invariant over the history: the file is a list of complete dumps followed by a proper prefix of one (`TornOff`), empty if the last append returned; by C78 (what a failing stream has taken, and no torn dump loads) and C26 (every complete dump loads, wherever it is).  C113_undumpable_refuted: n = 0, text = b"x" with size=n.
* **C114** (packets) Spec/Packets: the receiver (`receive`, `receiveAll`).  Induction over the packets: the bytes so far are complete dumps followed by a proper prefix of the next (`prefix_split`), which does not load (C78); the split is unique (`split_unique`).  C114_read_to_end_refuted: UInt8 and Array(UInt8()).
* **C115** (conversion) Spec/Convert: `DictFree`, `SameNames`, `Suits`.  Combines C26 (round trip of the second class), C93 (rebuilding the first) and C99 (key order).  C115_nested: by induction over the values, dictionaries that differ in the order of their keys only (`Identical`, Spec/Equality) are written as the same bytes (Proofs/Rekey), so the conversion may go through nested structs of other classes.  C115_padding_refuted: StringZ to padded String and back.
* **C116** (dispatch) Spec/Tagged: the reader (`readTagged`, `readTaggedAll`), `TagField`.  What the derived class loads, the base loads (C72); get_field agrees with it (C24) and leaves the stream alone (`getField_stream`); the derived class restores its dump (C26).  Induction over the structs.
* **C117** (validators that change the struct) Model/Modify: validator methods as programs from values to a verdict and new values, threaded through `validate_contents`, `to_stream` and `from_stream`; with validators that change nothing it is the main model (C117_pure).  Dump and load are unfolded to those of the class without validators; the own validators are an invariant of assignment (`__set__` runs them); method validators by a frame argument over the order of the checks.
* **C118** (unknown chunks) Spec/Chunks: the writer (`putChunk`), the reader (`getChunk`), writing back (`putBack`).  The envelope and the known contents restore their values by C26, and dump to the same bytes again by C80; the tag and the body, being numbers or bytes, come back as they were given.  Induction over the chunks.  C118_extended_refuted: a body with one byte too many.
* **C119** (recursion depth of dumping) Dumping functions take a fuel that counts nested calls, so the fuel is the limit.  Spec/Stack: `Nests` (levels of lists, dictionaries and structs), `Modest`.  `to_dict` of values that nest V levels settles with V + S + 1 calls and leaves no structs (induction over the value); from then on fields only meet lists and dictionaries, and the induction is the one of C109 over the classes.  C119_reload: what a class of depth P loads nests less than P + S.  C119_no_recursion_error: with C75 (a program's classes are ranked by their depth, `classRank`).  C119_text_only_refuted: nested lists in a user-defined field.
* **C120** (version numbers) Model/Version: `str.partition`, `str.split`, `int()` and `str()` of integers over lists of characters, with an arbitrary table for what is a digit or a space outside ASCII.  Round trip by `Nat.ofDigitChars_toDigits` of the core library and the lemmas that a text of digits contains neither dots nor dashes; the base part contains no dash, so no number is negative.
* **C121** (growing files) The header is local (C63), so it loads the same from the longer file; the loop of the array is cut at the end of the old data: `open_loop` (induction on the fuel) says that k rounds bring it there with the old elements, and `open_loop_acc` that the elements gathered so far only stand before those to come.  `C121_dumped` with C40.  C121_rewritten (dumping again after adding elements) compares two runs of `Struct.to_stream` that differ in the array only, as in C122.
* **C122** (grouping) Spec/Group: `Grouped`, `SameData`, `Lenient`.  Loading is cut into the three runs of fields (`Loads.append`); `loads_apart` moves a run to another set of loaded fields that agrees on those it reads (`ReadsOff`), C42 puts the nested struct together.  Dumping: two runs of `to_dict` (as C71, C112) agree on the fields of each part, `Parts_runs` carries the bytes over, and C93 says that the nested struct, rebuilt from its dictionary, writes the same.  C122_reference_refuted: a size in a field outside the group.
* **C123** (traces of declarations) Spec/Bare: `bare` forgets what creating a class records; `SameFormat`: equal when bare.  Every operation is shown to be the same for the bare program (induction on the fuel, through dump, equality, load).  `C123_split`: collecting the fields of a body does not depend on the offsets before it (`collect_bare`), and validators bound in two steps are the same as in one (`bindValidators_append`).  C123_get_field_refuted with a subclass whose recorded offset counts the default of an inherited string.
* **C124** (renaming) Spec/Renaming: `Renamed ρ d e`, a logical relation: equal attributes, names and references mapped by `ρ`, callables that take related views to equal results.  Results are compared up to the names in exceptions (`Err.anon`); `isinstance` tests do not see names.  Every function of the dump and load path is shown to respect the relation (dictionaries: `Dict.rename` commutes with get, set, erase, update), fields by induction on the fuel.  The classes of nested structs stay as they are.  C124_declared: class statements that are related item by item (Spec/RenamingDecl) give related classes, by induction on the body.  C124_reference_refuted: a size that refers to the old name.
* **C125** (arrays and rows of fields) Spec/Unroll: `Unrolled d d' pre xs c k b post`, the classes with single fields `xs` and with the array; `SameElements`, the instances.  That the name of an element type does not matter comes from the renaming relation of C124 (attributes alike, names apart); the loop of the array and the loads of the single fields are both equivalent to reading the elements one after the other (`ReadsAll`).  The fields around are handled as in C122 (`ReadsOff`, `Unaware`).  C125_reference_refuted: a later size that refers to one of the fields.
* **C126** (splitting arrays) Spec/Halves: `Split`, the classes with one array and with two; `SameHalves`, the instances.  Loading an array with a count is reading its elements one after the other (`ReadsAll`, as for C125), which splits at any point; for dumping the same with `dumpAll`, and `recursive_to_dicts` goes through lists element by element.  C126_open_refuted: two arrays without a count.
* **C127** (order of fields) Spec/Permute: `Reordered`, the components of one class are a permutation of those of the other; `inOrder part`, the bytes of the fields one after the other; `Movable`, a field that loads alone.  Dumping: `struct[name]` is the same function for both classes, since the depth of its recursion is the number of fields, so the two dictionaries have the same entries (`TwoRuns` with nothing excepted, C71) and every `Part` is the same.  Loading: by C63 and C82 a field loads the same value from its bytes wherever they are (`Piece`), so a load is a list of pieces in the order of the fields.
* **C128** (byte order) Spec/Turn: `turnField X`, the field in the other byte order if it is one of `X`; `TurnedRound X d d'`; `turnParts X part`, the bytes of the fields `X` reversed.  Dumping: `to_dict` depends on what all fields have in common only (`structToDict_mapped`), so the dictionary is the same; the bytes of a number are those of the other byte order reversed (`leafDump_turn`).  Loading (`LoadsInPlace`: fields may look at the values loaded before, not at the bytes around them): both loads go through the same dictionaries field by field (`loads_turn`), each field loading the same value from its bytes wherever they are (`PieceAfter`); a number reads exactly as many bytes as its size (`number_between`), and their value is that of the reversed bytes in the other byte order (`piece_turn`).  C128_declared: `Meta.argument_defaults` with the other byte order gives `TurnedRound`, by induction on the class body (`collect_turn`).
* **C129** (signed and unsigned) Spec/Flip: `Flipped X d d'`, the integers `X` with the other sign; `HeldByBoth m i`, 0 ≤ i and 2i < 2^(8m).  Dumping: the dictionary is the same (`structToDict_mapped`, C128), and the bytes of a number that can be dumped at all do not depend on the sign (`writeInt_bytes`).  Loading: by induction on the fields, with the same dictionary at each (`loads_flip`); bytes whose value both can hold have the same value for both (`intOfBytes_held`).
* **C130** (wider encodings) Spec/Recode: `Widens k k'`, `k'` encodes and decodes as `k` does wherever `k` succeeds; `Recoded X k' d d'`, the texts `X` with the encoding `k'`.  Encoding, decoding and the byte-by-byte loop of `StringZ` give the same result with `k'` whenever they succeed with `k` (`encode_widens`, `decode_widens`, `stringzLoop_widens`, by induction); the expected size is the same unless it could not be found because of an unencodable default (`expectedSize_recode`); then field by field (`parts_recode`, `loads_recode`).

## 4. Trusted base

* Lean's kernel and the axioms `propext`, `Classical.choice`, `Quot.sound` (section 6).  No axioms of our own, no `sorry`, no
  `native_decide`/`bv_decide`.  Mathlib is used in the proofs about floats and timestamps only, and in those that import them.
* The reading of the Python source.  **Modelled**: `varints.py`, `helpers.py` (`peek_bytes`,
  `iter_bytes`), `errors.py` (class hierarchy), `fields/base.py`, `fields/numeric.py`, `fields/stringlike.py`,
  `fields/containers.py`, `structures.py`, the class-construction part of `pep526.py`, and the effect of `decorators.py`
  (`@computes`, `@present`, `@validates`, `@validates_struct`).
  **Not modelled**: type annotations and `typing` machinery beyond the mapping annotation → field; deprecation warnings; `__repr__`;
  pickling/copying; error message texts (the attributes used in properties, such as sizes and names, are modelled); version
  metadata; I/O errors of real files; threads.
* The reading of CPython's documented behaviour for `io.BytesIO`, `int.to_bytes/from_bytes`, `struct.pack/unpack`, the codecs listed
  in C51, `uuid.UUID`, `datetime.timestamp/fromtimestamp`, `dict`, `copy.deepcopy`.  The models of `struct.pack/unpack`, codecs, UUIDs
  and datetimes were compared with the standard library of CPython 3.11 on some 10⁵ random and boundary inputs (the library in
  `/repo` was not run).

## 5. Disagreements between documentation and code (found while modelling)

Each has a theorem with a concrete witness, and a theorem about what does hold; see the manifest for the names.

| where | what happens | theorem |
|---|---|---|
| `Struct.from_bytes(exact=True)` | accepts one byte of trailing data (compares with `len(data) - 1`) | `C22_…_refuted` |
| `Field(factory=…)` | `compute_value_for_dump` never calls the factory; a missing value is an error | `C33_…_refuted` |
| `Field(const=…)` | a value passed to the constructor is dumped instead; the result then cannot be loaded | `C19_…`, `C26_const_refuted` |
| `Field(discard=True)` | an explicitly set value is dropped by `to_dict()` before the dump, the default is written | `C38_…`, `C60_discard_refuted`, `C31_discard_refuted` |
| `partial_load` | forgets a discarded field right after reading it, so later references to it fail | `C61_…_refuted` |
| `Field(present=…)` | a dump first asks `present` with the context `None` (`to_dict`), so a field whose presence depends on the context is never written | `C74_present_refuted` |
| null values | are serialized with the context `None` | `C74_null_refuted` |
| `partial_dump` | ignores `present`, computed values, discard, and gives fields no `all_fields` | `C60_…_refuted` |
| `get_field` | a field at a static offset is loaded with no other fields known | `C24_…_refuted` |
| `init_kwargs` | a field without a size is read up to the size of the value that overrides it: fields after it move, or the load fails | `C62_…_refuted` |
| annotated classes | `validate_contents` does not run the validators of annotated fields; a class with annotations and an `@validates` method raises KeyError when it is created; an annotated class cannot have annotated subclasses (FieldRedefinedError); the default of an annotated field instance or struct class and `Optional` of a struct class are dropped | `C77_…` |
| annotations with a bar | `x: UInt8 \| None` is silently not a field (up to Python 3.13 its origin is `types.UnionType`, which the code does not look for) | `C77_bar_refuted` |
| to_stream | the return value of `write` is ignored: on a raw stream that takes only part of a chunk, the dump silently loses bytes | `C78_short_writes_refuted` |
| sentinels | with a `halt_check` that removes the sentinel (documented), dumping what was loaded does not write the sentinel again | `C79_redump_refuted` |
| load errors | the `offset` of the `UnexpectedEOFError` for a `UUID4` is the end of the data, for all other fields it is where the read began; a `DeserializationError` names the outermost field, a `ValidationError` the innermost | `C81_…_refuted` |
| `Struct.validate_contents` | called by `from_stream` after every field has run its `validate=` functions, it runs them again, also those of absent fields, which are given NOT_PRESENT (the documentation: "called with the deserialized value") | `C102_once_refuted`, `C102_absent_refuted`, `C110_validator_refuted` |
| `Field._get_null_repr`, `get_expected_size` | for an unsized field with `null_value=DEFAULT` whose value in the struct is None they call each other until Python gives up: `BuggyFieldImplementationError` instead of the `UnserializableValueError` that the field alone raises | `C103_same_error_refuted` |
| `copy.copy` | a shallow copy of a struct shares its dictionary of values: assigning to a field of the copy changes the original | `C101_shallow_refuted` |
| shared objects | a mutable `default`, `const` or `not_present_value` object is handed to every instance: changing it through one changes all; `to_dict` does not copy `bytearray`s | `C84_bytearray_refuted`, `C85_…_refuted` |
| from_stream | `peek_bytes` accepts a short read: on an unbuffered stream a null of two or more bytes can be taken for a value | `C86_short_read_refuted` |
| from_stream | where the bytes for `None` begin with those of a value, a torn dump of `None` loads as that value | `C78_torn_null_refuted` |
| from_stream | a null representation longer than the value is peeked for in full: on an open connection the load waits for bytes after the struct | `C87_null_refuted` |
| from_stream | `read_int` and `_read_exact_size` call `tell()`: nothing with a number in it can be loaded from a pipe or socket | `C87_unseekable_refuted` |
| offsets | an inherited unsized field with a default counts as being as long as the default; annotated subclasses start at 0 again | `C25_…_refuted` |
| `len(struct)`, `get_size` | count absent fields; guess sizes from defaults; null values given as bytes may have another length | `C30_…`, `C31_…`, `C106_guessed_refuted` |
| `StringZ(default=…)` | the default's length limits what can be loaded | `C47_…_refuted` |
| `StringZ(size, pad_byte)` | loading stops at the terminator and leaves the padding in the stream | `C48_…`, `C27_sized_stringz_refuted` |
| size from a signed field | a negative size reads the rest of the stream | `C65_…_refuted` |
| count from a signed field | a count of -1 lets an iterator of any length be dumped | `C39_…_refuted` |
| null values | loading peeks past the end of the value, so what follows a value can turn it into `None` | `C63_null_refuted`, `C63_stringz_null_refuted`, `C26_null_refuted` |
| null values | `Float64(null_value=0.0)`: −0.0 is loaded as `None` and dumped as 0.0 | `C27_null_zero_refuted` |
| `Union` | validators, const and null handling of a field choice are skipped on load | `C44_…_refuted`, `C27_union_validator_refuted` |
| `Float16/32` | out-of-range values raise `OverflowError`, not a binobj error | `C53_…_refuted` |
| `Timestamp(resolution="ms")` | 1001 ms is dumped as 1000 ms; 2038-01-19 03:14:08.002 loses a millisecond | `C55_…_refuted` |
| signed LEB128 | -64 (and every -2^(7k-1)) takes one byte more than necessary | `C06_leb128_minimal_refuted` |
| `Meta.argument_defaults` | do not reach array components, union choices, floats or timestamps | `C57_…_refuted`, `C107_…_refuted` |
| reusing a field object | assigning another class's field object rebinds it, and breaks the other class | `C58_reused_field_refuted` |
| `==` | may raise: if a nested struct lacks a required value, or a field without a fixed size has no value (`list(self)` calls `len(self)`); nested structs are compared with defaults filled in; a struct need not equal its own `to_dict()` | `C59_…_refuted` |
| `==`, `len` | a struct of a class with an array counted by another field cannot be compared, nor has it a length: `FieldReferenceError` | `C104_counted_array_refuted` |
| `==` | what was saved and loaded differs from the original if fields were left to their defaults, were discarded, were set although they are not there, hold NaN, or an incomplete dict stands for a nested struct | `C104_…_refuted` |
| `StructMappingProxy` | `len` counts bytes, not keys; fields that are not set are `in` it, or asking raises; `setdefault` never sets; it differs from every dict | `C73_…_refuted` |
| arrays | a byte string given as an array is loaded as a list | `C26_array_of_bytes_refuted` |
| `const` with `default` or `factory` | the default or the factory's value is dumped; the result cannot be loaded | `C68_const_with_…_refuted` |
| `const` without `size` | sizes strings and variable-length integers, but is an `AttributeError` for `Integer`, `Timestamp`, `Array`, `Nested`, `Union` | `C68_const_size_refuted` |
| malformed input | undecodable text, bad text UUIDs and out-of-range timestamps raise bare `ValueError`/`OverflowError` | `C66_refuted` |
| nested compute functions | a missing value that a compute function looks up is `MissingRequiredValueError` on its own, but a bare `KeyError` when the struct is nested | `C76_missing_nested_refuted` |
| `DEFAULT` as a value | dumped as the default, but a `TypeError` where the field is another field's size | `C76_default_size_refuted` |
| discarded counts | a class whose array is counted by a discarded field can be loaded but not dumped (`FieldReferenceError`) | `C76_discarded_count_refuted` |
| generators as values | `len(s)` and `s == t` use up a generator stored in an unsized array, so a later dump silently writes no items | `C90_len_refuted`, `C90_eq_refuted` |
| unions in iterators | an array of unions accepts a list of struct instances, but not an iterator over them (`TypeError` after part was written) | `C76_iterator_union_refuted` |
| unencodable values | text that cannot be encoded raises `UnicodeEncodeError` | `C76_refuted` |
| naive timestamps | a wall clock reading that is skipped when clocks are put forward is loaded as another one; different moments may be loaded as equal datetimes | `C88_gap_refuted`, `C88_order_refuted` |
| naive timestamps | in the first day of the year 1, loading and dumping raise a bare `ValueError` (CPython looks for changes of the clocks in the day before) | `C54_first_day_refuted`, `C76_first_day_refuted` |
| self-containing classes | a class that starts with itself loads forever (`RecursionError`) | `C67_self_first_refuted` |
| defaults that need themselves | `x = Nested(Self, default={})`: the class can be declared and instantiated, but dumping it or `len` never ends (`RecursionError`) | `C75_default_refuted` |
| counts read from the data | with elements that take no bytes (`Bytes(size=0)`), a count that takes a few bytes makes a list of billions of elements | `C94_count_refuted` |
| sizes read from the data | `Bytes(size=n, null_value=DEFAULT)` makes the loader build as many zero bytes as `n` says, before reading any | `C94_null_refuted` |
| counts read from the data | the same count keeps the loader busy for billions of calls | `C105_count_refuted` |
| computed fields and other computed fields | a computed field that reads another unset computed field has it computed anew, so with a compute function that draws a new value each time (`next(counter)`, `time()`) a checksum is taken over values other than those written | `C95_computed_from_refuted` |
| validation and compute functions | `validate_contents` and `to_dict` each call the compute functions, so what is written is not what was validated if they return something else the second time | `C95_validated_refuted` |
| computed fields of a loaded struct | loading stores their values, assignments to other fields do not change them and they cannot be assigned: `WAVFormatChunk` with a new `sample_rate` is saved with the old `byte_rate`, without an error | `C98_wav_rate_refuted`, `C98_follows_refuted` |
| computed fields that read computed fields | every read computes anew: n fields that each read the one before twice make 2^n calls in one dump | `C96_exponential_refuted` |
| `partial_load`, `get_field` | run no validator methods, so a record whose checksum is wrong is read without an error | `C108_partial_refuted` |
| `partial_dump` and `partial_load` | a field that `present` leaves out is written by the one and not read by the other, which takes its bytes for the next field; a missing field of no bytes is loaded although it was not written; a field whose size is another field cannot be partially dumped | `C111_absent_refuted`, `C111_empty_field_refuted`, `C111_size_field_refuted` |
| self-containing classes | an input in the format, as long as the recursion limit, raises `RecursionError` | `C109_recursive_refuted` |
| deeply nested values | `to_dict` descends recursively into lists that a field would write without looking into them: `RecursionError` | `C119_text_only_refuted` |
| null values given as bytes | are written as they are, whatever the size of the field | `C15_null_bytes_size_refuted` |
| `Struct(**s.to_dict())` | holds dictionaries instead of nested structs: a validator that looks into a nested struct accepts `s` and fails on the copy | `C93_validator_refuted`, `C93_present_refuted` |
| text with a byte order mark | comes back in the byte order of the machine, and in `utf-8-sig` with a mark it may not have had | `C100_…_refuted` |
| `Nested` of a struct that reads to the end | takes the rest of the enclosing message, though its payload alone is complete | `C112_to_end_refuted` |
| `to_stream` | a record that is refused half-way leaves bytes that may load as another record; write `to_bytes()` instead | `C113_undumpable_refuted` |
| validator methods that assign | may change a field that has been checked: a value its validator method rejects is written | `C117_method_validators_refuted` |
| `Struct.from_bytes(exact=True)` | does not notice one byte too many, so a program that reads and rewrites a chunk extended by one byte loses it | `C118_extended_refuted` |
| conversion between formats | a format that pads gives the padding back as part of the text | `C115_padding_refuted` |
| Arrays without count | what has arrived so far is taken for the whole message, so it depends on where the packets end | `C114_read_to_end_refuted` |
| `get_field` | goes to the recorded offset, which depends on how the class was declared: it may find the field in the class and not in the same class split into base and subclass | `C123_get_field_refuted` |
| `VersionInfo.from_string` (`__init__.py:23-29`) | refuses the normalised form of a pre-release (`1.2.3rc1`), which is what `importlib.metadata.version` reports, so importing the library from such a release would raise `ValueError`; `1.2.3.dev4` becomes `1.2.3`; a release and a pre-release of the same numbers cannot be compared | `C120_prerelease_refuted`, `C120_dev_refuted`, `C120_order_refuted` |

Other quirks that are modelled as they are: `max_bytes` is not enforced on load; an empty null representation always matches;
`Array(UInt8(name="x"))` is a configuration error; `const` without `size` on a container is an `AttributeError`; arrays of components
that consume nothing never stop loading (`C41_diverges`); a struct of a subclass in a `Nested` field is dumped as the declared class.

## 6. Axioms

`#print axioms` for every theorem in the manifest gives a subset of `propext`, `Classical.choice`, `Quot.sound`: at the last count
of 643 theorems, 601 use all three, 21 use `propext` and `Quot.sound`, 20 use `propext` only, one uses none.  Witness computations use `decide` or `decide +kernel`
(kernel reduction; no compiled code).

## 7. Seeded bugs

`seeded/LOG.jsonl` has one line per wrong program: the edited definition, the edit, the property it breaks and the theorems that no
longer build.
