{"id": "C01", "title": "Merge is a deep, right-biased overlay, path by path", "statement": "After a.merge(&b) with both a and b maps, what is visible at any path of keys and indexes is: what b shows there if b speaks about the path, otherwise what a shows there. b is silent about a path exactly when b is a map at every step up to some key of the path and has no entry for that key. So arrays, scalars and explicit None in b replace wholesale; only map-on-map recurses.", "quantifier": "all pairs of map values of any size and nesting depth, all paths", "why_tests_cant": "Values nest without bound and the rule differs for map/map, map/non-map, non-map/map and absent at every level; a test fixes one shape.", "anchors": ["src/model/merge.rs: Value::merge, Value::clone_merge"]}
{"id": "C02", "title": "Merge identity, idempotence and absorption", "statement": "Merging an empty map changes nothing; merging into an empty map yields a value indistinguishable from the overlay; merging a value into itself changes nothing; merging the same overlay twice is the same as merging it once.", "quantifier": "all map values a, b", "why_tests_cant": "An algebraic law over unboundedly nested values; tests check a handful of values.", "anchors": ["src/model/merge.rs: Value::merge"]}
{"id": "C03", "title": "When the grouping of merges is irrelevant", "statement": "merge(merge(a,b),c) and merge(a,merge(b,c)) are indistinguishable for every a if and only if c never has a map at a key path where b has a non-map. Outside that condition grouping is observable (layers must be folded left to right).", "quantifier": "all map values a, b, c", "why_tests_cant": "It is an if-and-only-if over all triples of nested maps; the failing triples are a thin set that example tests do not meet.", "anchors": ["src/model/merge.rs: Value::merge", "src/config.rs: BakuninConfig::build_value"]}
{"id": "C04", "title": "Merge does not depend on HashMap iteration order", "statement": "If a and a' (and b and b') are indistinguishable values whose maps are stored/iterated in different orders, the merged values are indistinguishable.", "quantifier": "all values and all iteration orders of every (nested) map", "why_tests_cant": "HashMap order is randomised per process; a test run sees one order out of factorially many.", "anchors": ["src/model/merge.rs: Value::merge lines 7-20"]}
{"id": "C05", "title": "Merge with a non-map is a no-op", "statement": "If either side of merge is not a map, the receiver is unchanged; the kind (map or not) of the receiver never changes; clone_merge returns exactly what merge leaves behind.", "quantifier": "all pairs of values", "why_tests_cant": "All variants times all nested payloads.", "anchors": ["src/model/merge.rs: Value::merge line 22, Value::clone_merge"]}
{"id": "C06", "title": "Merge never loses a key and never invents one", "statement": "The set of keys of the merged map, at the top level and at any key path where both sides are maps, is the union of the two key sets; hence len is at least the max and at most the sum of the two.", "quantifier": "all map values, all key paths", "why_tests_cant": "Unbounded maps and depth.", "anchors": ["src/model/merge.rs: Value::merge"]}
{"id": "C07", "title": "build_value shows, at each path, the last layer that speaks about it", "statement": "Whatever layers are registered (memory, environment, file, user-defined), the value returned by build_value shows at every path exactly what the last registered layer that speaks about this path shows; if no readable layer speaks about it, nothing is there.", "quantifier": "all configurations with any number of layers, all layer values, all paths", "why_tests_cant": "Quantifies over layer lists of any length and arbitrary nested values.", "anchors": ["src/config.rs: BakuninConfig::build_value", "src/model/merge.rs: Value::merge"]}
{"id": "C08", "title": "build_value always yields a map with unique keys", "statement": "Every successful build_value returns a Map (never None, scalar or array), even with zero layers or layers yielding non-maps, and no map inside it holds a key twice.", "quantifier": "all configurations and environments", "why_tests_cant": "All layer combinations, including odd user-defined layers.", "anchors": ["src/config.rs: BakuninConfig::build_value"]}
{"id": "C09", "title": "skip_on_error = true never fails and equals dropping the failing layers", "statement": "build_value(true) always succeeds, and its result is exactly the result of building the configuration from which the layers whose read fails were never registered.", "quantifier": "all configurations, all subsets of failing layers", "why_tests_cant": "2^n failure patterns for n layers.", "anchors": ["src/config.rs: BakuninConfig::build_value lines 133-139"]}
{"id": "C10", "title": "skip_on_error = false fails with the first failing layer, else agrees with true", "statement": "build_value(false) fails if and only if some layer fails to read, and then with the error of the first failing layer in registration order; if it succeeds it returns the same value as build_value(true).", "quantifier": "all configurations and failure patterns", "why_tests_cant": "2^n failure patterns and every layer order.", "anchors": ["src/config.rs: BakuninConfig::build_value"]}
{"id": "C11", "title": "Layer registry: first registration wins, order is registration order", "statement": "After any sequence of push_layer/with_layer/add_* calls, get_layer(name) returns the layer first registered under that name (None if never registered), and layers are read in the order of first registrations, each name once; later registrations under a used name have no effect.", "quantifier": "all sequences of registration calls", "why_tests_cant": "Histories of any length with any repetition of names.", "anchors": ["src/config.rs: push_layer, with_layer, add_memory_layer, add_environment_layer, add_file_layer, get_layer"]}
{"id": "C12", "title": "add_file_layer accepts exactly the enabled extensions and is atomic on error", "statement": "add_file_layer succeeds iff the path's extension is exactly 'toml' (toml feature) or 'json' (json feature); on failure it reports UnsupportedExtension with the path's extension and leaves the configuration unchanged; on success it registers a file layer for that very path unless the name is taken (still Ok).", "quantifier": "all paths, names, configurations and feature sets", "why_tests_cant": "All path strings (hidden files, trailing slashes, several dots, '..').", "anchors": ["src/config.rs: add_file_layer", "src/file_finder/file_extension.rs: FileExtension::match_path"]}
{"id": "C13", "title": "build_value depends only on its own inputs", "statement": "Two environments that agree on the variables whose trimmed name starts with the prefix of some registered environment layer and on the files of the registered file layers give the same build_value result; everything else (other variables, other files, directories) is irrelevant.", "quantifier": "all pairs of environments, all configurations of built-in layers", "why_tests_cant": "A non-interference statement over all pairs of worlds.", "anchors": ["src/config.rs: build_value", "src/config_layer/layer_env.rs: read_value", "src/config_layer/layer_file.rs: read_value"]}
{"id": "C14", "title": "A layer added last overrides, and only where it speaks", "statement": "Registering one more readable layer under a new name changes the built value into the merge of the previous built value with that layer's value; in particular any non-map the new layer holds at a key path is exactly what is read at that path.", "quantifier": "all configurations, all new layers", "why_tests_cant": "All configurations and layer values.", "anchors": ["src/config.rs: build_value, push_layer"]}
{"id": "C15", "title": "Map values behave like a finite map under any history of set", "statement": "Starting from new_map() (or any map), after any sequence of set(k,v), get(k) returns the value of the last set for k, otherwise what was there before, otherwise None; other keys are unaffected and set never fails on a map.", "quantifier": "all operation sequences, keys and values", "why_tests_cant": "Histories of any length.", "anchors": ["src/model/value.rs: Value::get, Value::set", "src/model/new.rs: Value::new_map"]}
{"id": "C16", "title": "Array values behave like a list under any history of push", "statement": "After any sequence of push on an array, at(i) returns the i-th element in push order (old elements first) and None beyond the end, and len is the number of elements.", "quantifier": "all operation sequences and indexes", "why_tests_cant": "Histories of any length, all indexes.", "anchors": ["src/model/value.rs: Value::at, Value::push, Value::len"]}
{"id": "C17", "title": "iter() yields exactly the elements, in order, then ends for good", "statement": "Repeatedly calling next on v.iter() returns v.at(0), v.at(1), ... v.at(len-1) and then None forever; on any non-array value it returns None from the first call.", "quantifier": "all values, any number of next calls", "why_tests_cant": "Unbounded arrays and unbounded numbers of calls after exhaustion.", "anchors": ["src/model/iter.rs: ValueIter::next"]}
{"id": "C18", "title": "Wrong-kind accesses are harmless", "statement": "get on a non-map and at on a non-array return None; set on a non-map and push on a non-array return the dedicated error and leave the value unchanged; a chain of get/at of any length never fails and returns None as soon as one step is missing.", "quantifier": "all values, all access chains", "why_tests_cant": "Chains of any length over arbitrary values.", "anchors": ["src/model/value.rs: get, set, at, push"]}
{"id": "C19", "title": "value_map! and value_vec! build what they spell and never panic", "statement": "value_map!{k1: v1, ...} yields a map where each key shows the value of its last occurrence and no other key exists; value_vec![..] yields the array of exactly the given elements; the unwraps inside the macros cannot fail.", "quantifier": "all argument lists of any length", "why_tests_cant": "All lists incl. repeated keys.", "anchors": ["src/model/new.rs: value_map, value_vec"]}
{"id": "C20", "title": "len counts what is there", "statement": "len of a map is the number of distinct keys it answers to, of an array its elements, of a string its UTF-8 bytes, and 0 for every other value; set grows len by one exactly when the key is new, push always by one.", "quantifier": "all values and operations", "why_tests_cant": "All values and histories.", "anchors": ["src/model/value.rs: Value::len"]}
{"id": "C21", "title": "== on values ignores map order and is an equivalence except for NaN", "statement": "a == b holds iff the values have the same shape and the same scalars at every path (floats compared numerically: 0 == -0, NaN != NaN), irrespective of map iteration order; == is symmetric and transitive, and v == v.clone() holds iff v contains no NaN.", "quantifier": "all pairs/triples of values", "why_tests_cant": "Recursive relation over unbounded values and all iteration orders.", "anchors": ["src/model/value.rs: derive(PartialEq)"]}
{"id": "C22", "title": "No API call can create a map with a duplicate key", "statement": "Every value obtained from constructors, From conversions, set, push, merge, the value macros, serialization and deserialization contains at most one entry per key in each map, at any depth.", "quantifier": "all histories of API calls", "why_tests_cant": "Invariant over all histories.", "anchors": ["src/model/value.rs", "src/model/merge.rs", "src/model/ser.rs", "src/model/visitor.rs"]}
{"id": "C23", "title": "Integer conversions are exact or an error, never wrap", "statement": "For every integer variant (64/128 bit, signed or not) and every integer target type, try_into returns Ok(n) with the same mathematical number iff it fits in the target's range, and otherwise a ConversionError 'Number value is out of target bounds'.", "quantifier": "all 4 integer variants x 10 target types x all stored numbers", "why_tests_cant": "2^128 inputs per pair of types.", "anchors": ["src/model/into.rs: to_number!, TryInto<i8..u128>"]}
{"id": "C24", "title": "From then TryInto returns the original", "statement": "For every integer type T, bool, char-free string, f64 and Option of them: Value::from(x).try_into() == Ok(x); Value::from(x) also converts to every wider integer type with the same number; Option::None becomes Value::None. Integers of up to 64 bits are stored as Integer or UInteger by their signedness, 128-bit ones as LongInteger or ULongInteger, so two integers give equal values exactly if kind and number agree; an f32 is stored with exactly its value and sign.", "quantifier": "all numbers of all 10 integer types, all bools, strings and floats", "why_tests_cant": "Domain is up to 2^128 numbers.", "anchors": ["src/model/from.rs", "src/model/into.rs"]}
{"id": "C25", "title": "Strings convert to integers exactly when they spell one in range", "statement": "try_into of a string to an integer type is Ok(n) iff the string is an optional sign ('+' always allowed, '-' only for signed targets), followed by one or more ASCII digits, denoting n, with n in the type's range; everything else (empty, lone sign, whitespace, '_', '-0' for unsigned) is an error.", "quantifier": "all strings, all 10 integer types", "why_tests_cant": "Infinitely many strings; the accept set must be exact on both sides.", "anchors": ["src/model/into.rs: value.parse::<T>()"]}
{"id": "C26", "title": "Integer to text and back is lossless", "statement": "Converting any integer value to String and that string value back to the same integer type yields the original number; distinct numbers yield distinct strings.", "quantifier": "all integers of all 4 variants / 10 types", "why_tests_cant": "2^128 numbers.", "anchors": ["src/model/into.rs: TryInto<String>, TryInto<iN/uN>"]}
{"id": "C27", "title": "Float to integer truncates; only small types report overflow", "statement": "A finite float converts to the integer obtained by truncating toward zero whenever that integer is in range. Out of range: i8..i32, u8..u32 return a ConversionError; i64, i128, u64 silently saturate; u128 rejects numbers at most -1 but saturates at i128::MAX above 2^127. NaN becomes 0 for every type.", "quantifier": "all 2^64 floats x 10 integer types", "why_tests_cant": "2^64 floats per type; boundary cases at 2^63, 2^64, 2^127.", "anchors": ["src/model/into.rs: Value::Float arms"]}
{"id": "C28", "title": "Integer to float is exact up to 2^53 and correctly rounded beyond", "statement": "Integers of magnitude at most 2^53 convert to f64 exactly (and convert back to the same integer); larger ones convert to a nearest representable float (ties to even), never to NaN or infinity. Booleans convert to exactly 1.0 and (positive) 0.0.", "quantifier": "all integers of the 4 variants", "why_tests_cant": "2^128 numbers.", "anchors": ["src/model/into.rs: TryInto<f64>"]}
{"id": "C29", "title": "Boolean conversion rules", "statement": "Numbers convert to true iff non-zero (NaN is true, -0.0 is false); strings convert iff they equal 'true'/'false' ignoring ASCII case; None, arrays and maps never convert.", "quantifier": "all values", "why_tests_cant": "All numbers and strings.", "anchors": ["src/model/into.rs: TryInto<bool>"]}
{"id": "C30", "title": "Char conversion rules", "statement": "A non-empty string converts to its first character (the rest is dropped), the empty string is an error; integers convert iff in 0..=255 to the character with that code point; booleans to '1'/'0'; floats, None, arrays and maps are errors. A refused integer reports target u8 (not char), and a refused ULongInteger reports source i64.", "quantifier": "all values", "why_tests_cant": "All strings and numbers.", "anchors": ["src/model/into.rs: TryInto<char>"]}
{"id": "C31", "title": "None, arrays and maps never convert to a scalar, and say so", "statement": "For each of the 14 scalar targets, try_into on None, Array or Map returns ConversionError naming the source kind, the target type and 'conversion not supported', whatever the contents; every ConversionError of every conversion names the requested target (only a refused integer-to-char conversion names u8 instead). Every error is exactly determined by the kind of the value and the target: source name, target name and reason.", "quantifier": "all values x 14 targets", "why_tests_cant": "All contents of arrays and maps, all numbers and strings.", "anchors": ["src/model/into.rs", "src/model/errors.rs: conversion_error!"]}
{"id": "C32", "title": "into_<type>_or falls back exactly on failure", "statement": "into_<type>_or(d) returns the converted value when try_into_<type> succeeds and d in every other case; it never fails, and the by-reference and by-mutable-reference conversions give the same result as the by-value one.", "quantifier": "all values, defaults and 14 targets", "why_tests_cant": "All values.", "anchors": ["src/model/into.rs: try_into_types!"]}
{"id": "C33", "title": "try_into_string is Display, restricted to scalars", "statement": "try_into_string succeeds exactly on booleans, numbers and strings and then equals the Display text; Display itself is total, and of an array is '[' + elements joined by ', ' + ']'.", "quantifier": "all values", "why_tests_cant": "All values of any size.", "anchors": ["src/model/into.rs: TryInto<String>", "src/model/value.rs: Display"]}
{"id": "C34", "title": "Float to text and back is lossless", "statement": "Converting a float value to String and back to f64 returns the same float (same sign of zero; NaN stays NaN); infinities and NaN included.", "quantifier": "all 2^64 floats", "why_tests_cant": "2^64 floats.", "anchors": ["src/model/into.rs: TryInto<String>, TryInto<f64>"]}
{"id": "C35", "title": "Deserializing a Value into a Value is the identity", "statement": "v.deserialize::<Value>() returns Ok of a value indistinguishable from v, for every value including 128-bit integers, NaN and nested maps.", "quantifier": "all values", "why_tests_cant": "Recursive over unbounded values.", "anchors": ["src/model/de.rs: Deserializer for Value, ValueSeq, ValueMap", "src/model/visitor.rs: ValueVisitor"]}
{"id": "C36", "title": "Serializing a Value into a Value is the identity except on 128-bit integers", "statement": "Value::serialize(v) returns Ok of a value indistinguishable from v iff v contains no LongInteger/ULongInteger at any depth; otherwise it returns a SerializationError.", "quantifier": "all values", "why_tests_cant": "Depends on a leaf at any depth.", "anchors": ["src/model/ser.rs: Serialize for Value, ValueSerializer (no serialize_i128/u128)"]}
{"id": "C37", "title": "Typed round trip through a Value", "statement": "For every Rust type built from bool, integers up to 64 bits, f32/f64, char, String, unit, (nested) structs, newtype/tuple structs, tuples, Vec, maps with bool/integer/char/string keys, Value itself (holding no 128-bit integer at any depth) and Option of a type whose values never serialize to None: Value::serialize(x) succeeds and deserialize of the result gives back x.", "quantifier": "all types of this family (any nesting) and all their values", "why_tests_cant": "A family of infinitely many types, each with unboundedly many values.", "anchors": ["src/model/ser.rs: ValueSerializer", "src/model/de.rs: Deserializer for Value"]}
{"id": "C38", "title": "Exactly which deserializations panic", "statement": "deserialize::<T>() never panics for types T that mention no enum and no byte buffer, whatever the value; for an enum or byte-buffer T it always panics (unimplemented!), also when the value was produced by serializing such a T. How much stack there is does not matter as long as it suffices: whatever a typed read gives, result or error, it gives with any larger stack too.", "quantifier": "all types of the family, all values", "why_tests_cant": "All types x all values.", "anchors": ["src/model/de.rs: deserialize_enum, deserialize_bytes, deserialize_byte_buf, ValueMap::next_value_seed unwrap"]}
{"id": "C39", "title": "Struct deserialization: extra keys ignored, missing options are None, missing required fields fail", "statement": "Deserializing a map into a struct depends only on the struct's own keys; adding or removing other keys with any value changes nothing; an absent field deserializes to None if it is an Option and makes the whole deserialization fail otherwise; a non-map never deserializes to a struct.", "quantifier": "all struct types, all maps", "why_tests_cant": "Any number of unknown keys with arbitrary values in any iteration order.", "anchors": ["src/model/de.rs: deserialize_struct, deserialize_ignored_any, ValueMap"]}
{"id": "C40", "title": "Sequence lengths in deserialization", "statement": "A Vec<T> deserializes from an array element by element with the same length and order, or fails if one element fails; a tuple of n fields succeeds iff the array has at least n elements and the first n deserialize: surplus elements are silently dropped.", "quantifier": "all arrays, tuple widths and element types", "why_tests_cant": "All lengths.", "anchors": ["src/model/de.rs: deserialize_seq, deserialize_tuple, ValueSeq"]}
{"id": "C41", "title": "Serialization never panics and has a fixed layout", "statement": "Value::serialize of any serde-derived data never panics and fails only on 128-bit integers or on map keys that are not scalars; structs become maps keyed by field name, enum variants become their name or a one-entry map from variant name to payload, bytes become arrays of integers, None/unit become None.", "quantifier": "all data of the serde data model", "why_tests_cant": "Unbounded nested data.", "anchors": ["src/model/ser.rs: ValueSerializer, ValueSerSeq, ValueSerMap, ValueSerTupleVariant, ValueSerStructVariant"]}
{"id": "C42", "title": "Map keys of any scalar type survive as text", "statement": "Serializing a map turns each key into its text form; distinct keys of one integer, bool, char or string key type stay distinct, so no entry is lost, and get(text(key)) shows that key's serialized value.", "quantifier": "all maps over the scalar key types", "why_tests_cant": "Injectivity of the text form over up to 2^64 keys.", "anchors": ["src/model/ser.rs: ValueSerMap::serialize_key/serialize_value"]}
{"id": "C43", "title": "128-bit integers cross serde only as raw Values", "statement": "Deserializing any value to i128 or u128 through deserialize fails, although try_into_i128/try_into_u128 may succeed; serializing an i128/u128 fails.", "quantifier": "all values and all 128-bit numbers", "why_tests_cant": "All numbers and values.", "anchors": ["src/model/de.rs: (no deserialize_i128/u128)", "src/model/ser.rs: (no serialize_i128/u128)"]}
{"id": "C44", "title": "Deserialization success and result do not depend on map iteration order", "statement": "If v and v' are indistinguishable, v.deserialize::<T>() succeeds iff v'.deserialize::<T>() does, and the results are equal, for types without integer-, bool- or char-keyed maps; with such maps order can matter only if two text keys denote the same key.", "quantifier": "all values, all iteration orders, all types of the family", "why_tests_cant": "Factorially many orders per map.", "anchors": ["src/model/de.rs: ValueMap"]}
{"id": "C45", "title": "find_first returns the first existing candidate", "statement": "With folders f1..fm and extensions e1..en defined, find_first returns the first candidate in folder-major order that exists; if none exists it returns the very first candidate when allow_missing, and NoFilesFound otherwise.", "quantifier": "all folder/extension lists and all filesystem states", "why_tests_cant": "2^(m*n) existence patterns.", "anchors": ["src/file_finder/alg_find_first.rs: find_first"]}
{"id": "C46", "title": "find_last returns the last existing candidate", "statement": "find_last returns the last existing candidate in folder-major order; if none exists it returns the very last candidate when allow_missing, and NoFilesFound otherwise.", "quantifier": "all folder/extension lists and all filesystem states", "why_tests_cant": "2^(m*n) existence patterns.", "anchors": ["src/file_finder/alg_find_last.rs: find_last"]}
{"id": "C47", "title": "find_all returns exactly the matching candidates, in order, numbered from 0", "statement": "find_all(false) returns the existing candidates in folder-major order (all candidates with allow_missing), numbered 0,1,2,...; NoFilesFound iff there is none. The numbering overflows u16 when 65536 or more candidates match: a panic with overflow checks, wrong numbers without.", "quantifier": "all folder/extension lists of any length, all filesystem states", "why_tests_cant": "2^(m*n) patterns; the overflow needs 65536 results.", "anchors": ["src/file_finder/alg_find_all.rs: find_all", "src/file_finder/find_result.rs: FindResult::with_index"]}
{"id": "C48", "title": "find_all_or_first is find_all with a fallback to the first candidate", "statement": "find_all_or_first returns what find_all(false) returns if any candidate exists, otherwise exactly one result, the first candidate with index 0; after successful validation it never reports NoFilesFound.", "quantifier": "all folder/extension lists and filesystem states", "why_tests_cant": "2^(m*n) patterns.", "anchors": ["src/file_finder/alg_find_all_or_first.rs: find_all_or_first"]}
{"id": "C49", "title": "Finder validation", "statement": "All four searches report NoFoldersDefined iff no folder was added, else NoExtensionsDefined iff no extension was added, whatever the filesystem contains; otherwise they never report these errors. An extension containing '/' makes find_last, find_all and find_all_or_first panic, and find_first too unless it finds a file in the first folder with an earlier extension.", "quantifier": "all finders and filesystem states", "why_tests_cant": "All finders.", "anchors": ["src/file_finder/finder.rs: validate"]}
{"id": "C50", "title": "Candidate paths are <folder>/<name>.<ext>, but a dotted name loses its last segment", "statement": "For a plain file name (no '/', not empty, not '.' or '..') whose only dot, if any, is its first character, the candidate path is the folder joined with name + '.' + ext; if the name has a later dot, everything after its last dot is replaced by the extension. The candidate's extension as seen by Path::extension is always ext (for a dot-free ext). An absolute name replaces the folder; with the empty extension the name is looked up as it is (a dotted one without its last segment, dot included).", "quantifier": "all folders, names and extensions", "why_tests_cant": "All strings; dots, slashes and hidden files interact.", "anchors": ["src/file_finder/alg_find_first.rs: lines 20-22", "src/file_finder/finder.rs: FileFinder::new"]}
{"id": "C51", "title": "FindResult fields are truthful, except the extension tag", "statement": "Every result's path is one of the candidates, its exists flag equals the existence of that path, its index is its position; its extension is Custom(ext) for every extension given without leading dot, so it never reports Toml/Json and extension.match_path(path) is always false. \"Exists\" means that something is at the path, be it a regular file or anything else, such as a directory.", "quantifier": "all searches in all filesystem states", "why_tests_cant": "All searches.", "anchors": ["src/file_finder/find_result.rs: FindResult::new", "src/file_finder/file_extension.rs: From<&'static str>, match_path"]}
{"id": "C52", "title": "OS directory resolution", "statement": "Folders are searched in the order they were added; a directory that cannot be resolved is skipped without disturbing the others; when the user's base directories cannot be determined no OSDirectory resolves, not even WorkingDirectory or an explicit Path. Every with_* method of the builder adds exactly what its name says: its folder or its extension at the end, nothing else changed.", "quantifier": "all sequences of with_* calls, all environments", "why_tests_cant": "All sequences and all resolution outcomes.", "anchors": ["src/file_finder/os_directory.rs: to_path_buf, with_os_directory"]}
{"id": "C53", "title": "The four searches agree with each other", "statement": "When any candidate exists, find_first and find_last are the first and last elements of find_all(false) and find_all_or_first equals it; find_all(true) always lists every candidate and contains every other result.", "quantifier": "all finders and filesystem states", "why_tests_cant": "2^(m*n) patterns.", "anchors": ["src/file_finder/alg_find_first.rs", "src/file_finder/alg_find_last.rs", "src/file_finder/alg_find_all.rs", "src/file_finder/alg_find_all_or_first.rs"]}
{"id": "C54", "title": "Environment layer: exactly the prefixed variables, with the prefix removed", "statement": "Reading an environment layer with non-blank prefix P yields a map of strings; key k is present iff some variable with valid Unicode name and value has trimmed name P repeated one or more times followed by k with k not starting with P; its value is the value of the last such variable. In particular P+k set to s (k not starting with P, no surrounding blanks, no other spelling) shows s at k.", "quantifier": "all environments and prefixes", "why_tests_cant": "All environments.", "anchors": ["src/config_layer/layer_env.rs: EnvironmentConfigLayer::new, read_value"]}
{"id": "C55", "title": "Environment layer: blank prefix is an error, junk is ignored, collisions are possible", "statement": "A blank prefix makes every read fail; variables without the prefix or with non-Unicode name/value never influence the result; two different variables can land on the same key only if their trimmed names differ just by repetitions of the prefix or surrounding blanks, and then the later one wins.", "quantifier": "all environments and prefixes", "why_tests_cant": "All environments.", "anchors": ["src/config_layer/layer_env.rs: read_value"]}
{"id": "C56", "title": "File layer: missing file is an empty map, unreadable or malformed file is an error", "statement": "Reading a file layer never changes anything on disk; it returns an empty map iff-and-only-because the path does not exist or parses to one, the parsed content if readable, and an error otherwise (a directory in its place, a file that may not be read or is not UTF-8, a text that does not parse); a missing file therefore never affects build_value.", "quantifier": "all filesystem states and paths", "why_tests_cant": "All filesystem states.", "anchors": ["src/config_layer/layer_file.rs: read_value", "src/config_layer/handlers/toml.rs: read"]}
{"id": "C57", "title": "Writing a layer and reading it back", "statement": "write_value on a file layer either fails leaving the file as it was (serialization failure or the OS refusing to open it), or fails midway leaving a prefix of the new text (the OS failing during the write), or makes the next read return what the text format round-trips for the value; no other file changes, and unrelated layers read the same.", "quantifier": "all values, paths and filesystem states, for every text format", "why_tests_cant": "All values and filesystem states.", "anchors": ["src/config_layer/layer_file.rs: write_value", "src/config_layer/handlers/toml.rs: write"]}
{"id": "C58", "title": "Memory and environment layers are read-only; can_write is not reliable", "statement": "write_value on memory and environment layers always fails with WriteNotSupported and changes nothing; can_write is false for every built-in layer although write_value on a file layer can succeed.", "quantifier": "all layers, values and environments", "why_tests_cant": "All values and worlds.", "anchors": ["src/config_layer/layer_mem.rs", "src/config_layer/layer_env.rs", "src/config_layer/layer_file.rs: can_write, write_value"]}
{"id": "C59", "title": "Crash during write_value", "statement": "If the process dies at any point of write_value to a file layer, the file is either untouched or holds a prefix of the new text (possibly empty): the old content can be lost, no other file is affected, and before the file is opened nothing has changed.", "quantifier": "all crash points of a write, all values and filesystem states", "why_tests_cant": "Every crash point.", "anchors": ["src/config_layer/handlers/toml.rs: write (std::fs::write)"]}
{"id": "C60", "title": "create_config! layer order and precedence", "statement": "The configuration built by create_config! has the layers 'default', then the file layers in written order (skipping those whose directories do not resolve or whose name repeats an earlier one), then 'environment' if requested and not already taken; so environment overrides files, later files override earlier ones, and defaults are last.", "quantifier": "all macro inputs and all environments", "why_tests_cant": "Any number of layers, all directory-resolution outcomes.", "anchors": ["src/config_macro.rs: create_config"]}
{"id": "C61", "title": "create_config! init never overwrites an existing file, provided layer names are distinct", "statement": "With pairwise distinct layer names, evaluating create_config! leaves every existing file byte-for-byte unchanged and creates at most the chosen path of layers marked init: true; without init nothing is written. With a repeated layer name an existing file can be overwritten by the defaults.", "quantifier": "all macro inputs and filesystem states", "why_tests_cant": "All inputs and filesystem states; the overwrite needs a specific combination.", "anchors": ["src/config_macro.rs: lines 26-41", "src/config.rs: push_layer"]}
{"id": "C62", "title": "Freshly initialised configuration reads back the defaults", "statement": "If no candidate file exists, no matching environment variable is set and the text format round-trips the defaults, then after create_config! (with or without init) build_value returns the defaults, and running it again changes nothing on disk.", "quantifier": "all defaults, layer lists and filesystem states without candidate files", "why_tests_cant": "All inputs.", "anchors": ["src/config_macro.rs: create_config", "src/config.rs: build_value"]}
{"id": "C63", "title": "init is not safe against concurrent creation", "statement": "If no other process interferes between the existence check and the write, init never destroys content; an interleaving in which another process creates the file between the two steps loses that content.", "quantifier": "all interleavings of one external file operation with the init steps", "why_tests_cant": "Schedules.", "anchors": ["src/config_macro.rs: lines 32-38", "src/config_layer/handlers/toml.rs: write"]}
{"id": "C64", "title": "Kinds of a value are decidable, disjoint and stable", "statement": "is_map holds exactly for values on which set succeeds, is_array exactly for those on which push succeeds, is_none exactly for None; at most one holds; the empty constructors have the advertised kind and length 0; no update (set, push, merge, clone_merge) changes the kind of a value.", "quantifier": "all values, keys and updates", "why_tests_cant": "All values of unbounded depth and all updates.", "anchors": ["src/model/value.rs: is_map, is_array, is_none, set, push", "src/model/merge.rs: merge"]}
{"id": "C65", "title": "A document of any format is read faithfully as a Value", "statement": "Deserializing a Value from any self-describing document succeeds exactly if the document is made of booleans, numbers, characters, text, null/unit, optionals, lists and maps with text keys (byte strings, newtypes and enums are rejected). The value then shows, at every path, exactly what the document has there: integers keep their number and signedness (128-bit ones become the long kinds), both float widths keep their number, a character becomes one-character text, optionals are transparent, of several entries for one key the last counts, and nothing else is there.", "quantifier": "all documents of any depth and size, all paths", "why_tests_cant": "Infinitely many documents; the claim includes that nothing else appears.", "anchors": ["src/model/visitor.rs: ValueVisitor", "src/model/de.rs: Deserialize for Value"]}
{"id": "C66", "title": "A round trip through a text format is unobservable to typed readers", "statement": "If a format hands back a faithful presentation of a value it printed (integers in any width that has the number, maps in any order, None as null), reading it succeeds and gives a value with the same paths showing the same there up to the kind of integers; such values convert with every try_into / into_or to the same result, behave alike under get/at, merge to such values, deserialize into every type with concrete scalars with the same outcome and into types with a Value inside with the same outcome up to the kind of the integers in that Value, typed settings written to such a file are read from it so, and configurations whose layers read such values build such values. The integer kind itself may change.", "quantifier": "all values, presentations, target types (including recursive structs at any depth), layer lists and worlds", "why_tests_cant": "All values, presentations and types; needs congruence of every consumer.", "anchors": ["src/model/visitor.rs", "src/model/de.rs", "src/model/into.rs", "src/config_layer/handlers/toml.rs: read, write", "src/config.rs: build_value"]}
{"id": "C67", "title": "init: true really initialises its layer", "statement": "With pairwise distinct layer names none of which is \"default\", after create_config! every layer marked init: true has an existing candidate, unless the format cannot print the defaults or the OS refuses to create the first candidate. If none of its candidates existed, no other init layer starts at the same place and the disk has room, then exactly the first candidate was created and holds exactly the text the format prints for the defaults.", "quantifier": "all layer lists, defaults, formats and filesystem states", "why_tests_cant": "All combinations of directories, layers and filesystem states; layers interact through the files earlier ones create.", "anchors": ["src/config_macro.rs: lines 18-44", "src/config_layer/layer_file.rs: write_value"]}
{"id": "C68", "title": "Hand-written Serialize implementations get exactly what they stored", "statement": "For any sequence of serialize_key / serialize_value / serialize_field calls: it panics exactly if a value is given while no key is pending (or an argument's own serialization panics); otherwise the finished value is a map that holds under each key what the last call that stored something under it stored. A failed key call keeps the pending key, a failed value call uses it up, a second key replaces it, and a key without a value leaves no trace. A sequence of element calls gives the array of the elements that serialized, in order. Standard maps and derived structs are such histories.", "quantifier": "all histories of calls of any length, including ones that go on after errors", "why_tests_cant": "Unbounded call histories in any order.", "anchors": ["src/model/ser.rs: ValueSerMap, ValueSerSeq, ValueSerTupleVariant, ValueSerStructVariant"]}
{"id": "C69", "title": "Hand-written visitors see a map or array exactly as it is", "statement": "For any sequence of next_key / next_value calls on a map: next_key answers with the key of the first entry whose value was not taken yet, without using it up, or None if all were taken; next_value takes that entry's value and panics if there is none; failing seeds make no difference. So key-then-value sees every entry once and then the end, a key-only visitor of a non-empty map never gets to the end, a value-only visitor panics after the last value. The i-th next_element call on an array answers with the i-th element or None, and the size hint is always exact. The standard visitors are such histories.", "quantifier": "all maps, arrays, seeds and histories of calls", "why_tests_cant": "Unbounded call histories in any order.", "anchors": ["src/model/de.rs: ValueMap, ValueSeq, next_key_seed, next_value_seed, next_element_seed, size_hint"]}
{"id": "C70", "title": "Searches among other processes answer by what they saw", "statement": "While find_first, find_last, find_all or find_all_or_first runs, other processes may create and remove files between any two looks. The search looks at the candidates once each, in order, and answers by what it saw at those moments: the first / last / all candidates that were there when looked at (with the documented fallback if none was). A candidate that is there all the time is never overlooked; if no candidate is created or removed the answer is as without other processes. The existence flag in a result comes from a second look, so it can contradict the search (find_first(false) can return exists = false).", "quantifier": "all finders, all build features, all sequences of worlds seen at the successive looks", "why_tests_cant": "Interleavings with other processes cannot be enumerated or forced by a unit test.", "anchors": ["src/file_finder/alg_find_first.rs: find_first", "src/file_finder/alg_find_last.rs: find_last", "src/file_finder/alg_find_all.rs: find_all", "src/file_finder/alg_find_all_or_first.rs: find_all_or_first", "src/file_finder/find_result.rs: FindResult::new"]}
{"id": "C71", "title": "build_value among other processes works on one reading of each layer", "statement": "While build_value runs, other processes may change files and variables between any two looks. The result is what build_value gives for layers frozen to the readings taken: each layer is read exactly once, in order of registration, and nothing else is looked at. A file that is missing when looked at counts as an empty map, a file that vanishes between the look and the reading is a NotFound error. If nobody touches the registered files and prefixed variables, the result is as without other processes; with skip it is always a map.", "quantifier": "all histories of registrations, all sequences of worlds at the successive looks, both flags", "why_tests_cant": "Interleavings with other processes cannot be enumerated or forced by a unit test.", "anchors": ["src/config.rs: BakuninConfig::build_value", "src/config_layer/layer_file.rs: FileConfigLayer::read_value", "src/config_layer/layer_env.rs: EnvironmentConfigLayer::read_value"]}
{"id": "C72", "title": "A reader during a write gets old bytes continued by new bytes", "statement": "read_value of a file layer reads the file in pieces of any length. Without a writer it gets exactly the bytes of the file, whatever the pieces. While another process is in write_value for the same file it gets a beginning of the old bytes continued by the new bytes at the same positions; a beginning of the text if the file is created or rewritten with what it holds; the new text if the write was complete. It can therefore see a mixture that was never in the file and parse it successfully.", "quantifier": "all contents, texts, piece lengths of reader and writer, all interleavings", "why_tests_cant": "Interleavings of system calls of two processes.", "anchors": ["src/config_layer/handlers/toml.rs: TomlFileHandler::read, write", "src/config_layer/layer_file.rs: FileConfigLayer::read_value, write_value"]}
{"id": "C73", "title": "Concurrent writers of one file", "statement": "Any number of processes in write_value for one path, interleaved system call by system call: they touch nothing but that file; once the one that opened the file last is done, the file holds exactly its text, provided those still writing write the same text - so any number of concurrent first runs that write the same defaults leave exactly these. With different texts every byte is a zero or from the same position of one of the texts, and mixtures do occur although every writer reports success; if the last opener dies, zeros can be left.", "quantifier": "any number of writers, all texts, all piece lengths, all interleavings, all crash points", "why_tests_cant": "Unbounded interleavings of system calls of many processes.", "anchors": ["src/config_layer/handlers/toml.rs: TomlFileHandler::write", "src/config_layer/layer_file.rs: FileConfigLayer::write_value", "src/config_macro.rs: create_config init"]}
{"id": "C74", "title": "Typed defaults survive every run", "statement": "From a clean start (no file and no relevant variable yet, folders writable) create_config! followed by build_value succeeds in the first and in every later run, the disk stays as the first run left it, and the built value shows the defaults at every path (integers up to their kind, which formats need not keep). A default that was serialized from a typed value, or a whole struct of defaults, is read back as exactly that value in every run (with a Value inside, up to the kind of the integers in it).", "quantifier": "all clean worlds, macro arguments, formats faithful on the defaults, types that round-trip, numbers of runs", "why_tests_cant": "Any number of runs, any format, any nested type.", "anchors": ["src/config_macro.rs: create_config", "src/config.rs: build_value", "src/model/ser.rs", "src/model/de.rs"]}
{"id": "C75", "title": "A section is layered on its own", "statement": "Reading the built value under a key: absent if no layer has the key; exactly the last layer's entry if that is not a map; otherwise the merge of the maps which the last layers hold there. A struct without sections reads, field by field, from the last layer that has the field; it fails exactly if one of these readings fails or a non-optional field is in no layer.", "quantifier": "all configurations of map-valued layers, keys, structs", "why_tests_cant": "Any number of layers and nesting.", "anchors": ["src/config.rs: build_value", "src/model/merge.rs", "src/model/de.rs: deserialize_struct"]}
{"id": "C76", "title": "An environment variable decides its key, as text", "statement": "If a variable lands on key k of the environment layer and no later layer has k, the built value holds its text there, whatever the lower layers hold; read as an integer it is the number the text spells and an error otherwise, as bool by true/false ignoring case, as Option the same wrapped; it can never be read as a list, tuple, map or struct.", "quantifier": "all configurations, environments, prefixes, keys, texts and target types", "why_tests_cant": "All environments and target types.", "anchors": ["src/config_layer/layer_env.rs: read_value", "src/config.rs: build_value", "src/model/de.rs"]}
{"id": "C77", "title": "Saving through a file layer, then building", "statement": "After write_value of a map on a file layer of a configuration succeeds (no other layer at the same place, format faithful on it), the configuration still builds, and the new built value shows the written value wherever it speaks and no later layer does, and what the old one showed wherever a later layer speaks or neither old nor new content of the file does. A failed write never changes what other layers read.", "quantifier": "all configurations, worlds, values and paths inside values", "why_tests_cant": "All configurations and values.", "anchors": ["src/config_layer/layer_file.rs: write_value", "src/config.rs: build_value"]}
{"id": "C78", "title": "The README's hand-written program and create_config! are the same", "statement": "The program that the README says create_config! simplifies: whenever it gets through, the macro call leaves the same world, and the two configurations build the same value or error, now and in every later world, as long as no local file comes up where there was none. The program panics exactly if the write that initialises the global file fails; the macro never does. Without a local file only the macro's configuration has a layer 'local', for the first candidate, so only it can notice or write one later.", "quantifier": "all builds, formats, file names, defaults, prefixes, worlds and later worlds", "why_tests_cant": "All worlds: every combination of existing files, directories and variables.", "anchors": ["README.MD: lines 237-313", "src/config_macro.rs: create_config!"]}
{"id": "C79", "title": "Errors can be told apart", "statement": "Two ModelErrors are == exactly if they carry the same data. Two errors of the crate whose displayed texts are equal are the same error, from the same part of the crate (I/O errors up to their std text), provided the type names in a conversion error are names - and every conversion error the crate makes has such names.", "quantifier": "all pairs of errors", "why_tests_cant": "All messages and names inside errors.", "anchors": ["src/model/errors.rs: PartialEq, Display", "src/bak_error.rs: Display", "src/config_layer/error.rs: Display", "src/file_finder/error.rs: Display"]}
{"id": "C80", "title": "create_config! among other processes", "statement": "Whatever other processes do while create_config! runs, it succeeds with the default layer, one file layer per layer that has a candidate (a path its search has seen to exist, none before it having been seen, or the first candidate after none was seen), and the environment layer, in this order. With distinct layer names it writes only the defaults, only through layers marked init: true, at most once per layer, only to a path that was missing when it was checked, and changes nothing else; every such layer all of whose candidates are missing at the check is written. With nobody else around this is the behaviour of the macro as in C60-C62.", "quantifier": "all builds, formats, arguments, and all sequences of worlds the macro can meet at its looks and writes", "why_tests_cant": "All interleavings with other processes.", "anchors": ["src/config_macro.rs: create_config!", "src/file_finder/alg_find_first.rs: find_first", "src/config_layer/layer_file.rs: write_value"]}
{"id": "C81", "title": "Which texts are floats, and which float", "statement": "A string value converts to f64 exactly if it is an optional sign followed by a decimal numeral (digits, optional point and digits, optional exponent, at least one digit) or by one of the words nan, inf, infinity in any letter case; any other text is a ConversionError saying it can't be parsed. A numeral of at most 65000 characters, or of any length with an exponent between -65535 and 65535, gives the float nearest to the number it spells, ties to even, with its sign (also for zero), and the infinity of its sign from half a step above the largest float on; longer ones with greater exponents are accepted but can be read as another number (a numeral for 1 as 0).", "quantifier": "all strings", "why_tests_cant": "All strings; rounding boundaries lie between any two of 2^64 floats.", "anchors": ["src/model/into.rs: TryInto<f64>"]}
{"id": "C82", "title": "Typed reading of a scalar is the direct conversion", "statement": "Deserializing a bool, f64, char, String or integer (up to 64 bits) field from any value gives exactly the value or the error of the direct conversion; Option<T> reads None as None and everything else as T. An f32 is read by converting to f64 and rounding that to the nearest f32, so integers are rounded twice and the result need not be the nearest f32.", "quantifier": "all values and scalar targets", "why_tests_cant": "All numbers and strings.", "anchors": ["src/model/de.rs: Deserializer for Value", "src/model/into.rs"]}
{"id": "C83", "title": "The text of a scalar is canonical and shortest", "statement": "A float other than zero is written with its sign in plain positional notation (no exponent, no superfluous zeros) as a number of at most 17 significant digits that reads back as the same float; no text (of at most 65000 characters) for a number of fewer significant digits reads back as it, and of those with as few none is nearer to the float. Integers are written as an optional minus sign and digits without leading zeros, booleans as true/false (which read back), NaN, inf, -inf, 0, -0 as such, and a string is its own text.", "quantifier": "all floats, integers, booleans and strings; all competing texts", "why_tests_cant": "2^64 floats against all decimal texts.", "anchors": ["src/model/into.rs: TryInto<String>", "src/model/value.rs: Display"]}
{"id": "C84", "title": "What saving to TOML does to a value", "statement": "For any format that behaves like TOML (no null): write_value refuses with SerializeError, leaving the disk as it was, exactly the values TOML cannot hold (not a map; a None in a list, a 128-bit kind of integer or an unsigned integer above i64::MAX at any depth). After a successful write the layer reads everything back, up to the kind of integers, except map entries that were None; no chain of get/at and no conversion can tell the difference. A None saved to the file does not hide what lower layers say (in a memory layer it does). A typed struct whose only nullable parts are Option fields is read back unchanged; a HashMap of Options is not, unless all are set. Settings with a Value inside that serialize without None entries are read back up to the kind of the integers in the Value.", "quantifier": "all values nested less deep than the parser's limit, worlds, layer lists, struct types and TOML-like codecs", "why_tests_cant": "All values, types and layerings; any syntax.", "anchors": ["src/config_layer/handlers/toml.rs: TomlFileHandler", "src/config_layer/layer_file.rs: FileConfigLayer", "src/model/ser.rs: Serialize for Value", "src/config.rs: build_value"]}
{"id": "C85", "title": "Defaults with None through create_config! and TOML", "statement": "Let the formats behave like TOML (which has no null) and like faithful JSON. From a clean start, create_config! succeeds on every run, whatever the defaults, even if TOML cannot hold them; the disk after any run is as after the first; and the value built by any run has every default, up to the kind of integers, except that a None entry of a table inside a list may be missing. Without such entries the built value is exactly the defaults, including every None. Defaults given as the fields of a typed struct with Option fields deserialize back to the same struct on every run; so do those of any round-tripping type if no None entry is inside a list, up to the kind of the integers in a Value. Conversely, once the file holds what TOML made of a value, a None entry of a table inside a list is gone from the built value, even if a lower layer has it.", "quantifier": "all defaults, formats, builds, file systems that are a clean start, macro arguments, numbers of runs, types of the Option-carrying kind and values of them", "why_tests_cant": "It ranges over all defaults of any shape and depth and over any number of program runs; a test checks one configuration for one or two runs.", "anchors": ["src/config_macro.rs: create_config", "src/config.rs: build_value", "src/config_layer/layer_file.rs: FileConfigLayer", "src/config_layer/handlers/toml.rs: TomlFileHandler", "src/model/merge.rs", "src/model/de.rs"]}
{"id": "C86", "title": "Editing one setting of a file layer", "statement": "Read a file layer of a configuration, set a key in what it read, write it back successfully (format faithful on it, no other layer at the same place). The configuration still builds, and the new built value shows the new setting wherever no later layer speaks about it (where the new setting is silent, what the earlier layers show), what was shown before wherever a later layer speaks, and what was shown before under every other key, up to the kind of integers. More generally, for any edit, at every path along which the edit changed nothing the built value shows what it showed.", "quantifier": "all configurations of the crate's layers, worlds, file contents, keys, new values and paths", "why_tests_cant": "The frame condition ranges over every path of every built value and every combination of layers.", "anchors": ["src/config_layer/layer_file.rs: FileConfigLayer", "src/config.rs: build_value, get_layer", "src/model/value.rs: Value::set", "src/model/merge.rs: merge"]}
{"id": "C87", "title": "Saving the built value into one of its layers", "statement": "Write the built value through one of the configuration's file layers (successfully, format faithful on it) and build again: everything the old built value showed is shown, up to the kind of integers. Something new can be shown only from an earlier layer, and only below a place where the old content of the file had a non-map and a later layer has a map; so if there is no such place, in particular if the file layer is the last one, the built value does not change. Saving the newly built value again never changes anything.", "quantifier": "all configurations of the crate's layers, worlds, file contents and paths", "why_tests_cant": "All layer combinations and paths; the exceptional case is a rare three-layer pattern that tests miss.", "anchors": ["src/config_layer/layer_file.rs: FileConfigLayer", "src/config.rs: build_value, get_layer", "src/model/value.rs: Value::set", "src/model/merge.rs: merge"]}
{"id": "C88", "title": "build_value calls each layer once, in order, and stops at the first failure", "statement": "For layers with internal state and effects (anything implementing ConfigLayer): build_value(skip) calls read_value of each registered layer exactly once, in registration order, and no other method of any layer; with the first panic, or the first error unless errors are skipped, it ends with just that, and later layers are not called. The value built shows at each path the last answer speaking about it, as answered in this very build. get_layer gives the first layer pushed under a name, and writing through it has exactly that layer's outcome and effect, seen by the next build. For stateless layers this is the build_value of C07–C14.", "quantifier": "all lists of pushed layers with arbitrary state, effects and answers, both values of the skip flag, all starting states", "why_tests_cant": "Ranges over all layer implementations, states and answer sequences; a test has a fixed mock.", "anchors": ["src/config.rs: build_value, push_layer, get_layer", "src/config_layer/layer.rs: ConfigLayer"]}
{"id": "C89", "title": "What layers and configurations tell about themselves", "statement": "An environment layer's get_prefix is the given prefix without surrounding blanks, Display shows it, and it determines the layer: two environment layers read alike in every environment exactly if they show the same prefix. A file layer's get_path is the given path; exists and has_value always agree and tell whether there is something at it, and are true after a successful write through the layer. {:?} of a configuration lists each registered layer exactly once with its kind, whatever the iteration order of the HashMap, and changes nothing.", "quantifier": "all prefixes, paths, worlds, handlers, registrations and iteration orders", "why_tests_cant": "All strings and worlds, and all HashMap iteration orders.", "anchors": ["src/config_layer/layer_env.rs: EnvironmentConfigLayer", "src/config_layer/layer_file.rs: FileConfigLayer", "src/config.rs: Debug for BakuninConfig"]}
{"id": "C90", "title": "Structs with serde attributes read from a configuration", "statement": "Reading a struct with default, rename, alias, skip and deny_unknown_fields from a map succeeds exactly if each field either finds exactly one of its keys there and can be read from it, or finds none and has a default (or is an Option), and, under deny_unknown_fields, every key is some field's; the result is what each field gets. A null is present, not absent. In a configuration: a field gets its default exactly when no layer holds any of its keys; if two layers hold it under its name and an alias, reading fails whatever their order; under deny_unknown_fields one unknown key in one layer (e.g. an extra environment variable) makes reading fail. Fields left out by skip_serializing_if come back as the default. Without attributes this is the plain derived struct.", "quantifier": "all structs, attributes, field types (arbitrary decoders), values and layer combinations", "why_tests_cant": "All combinations of attributes, keys and layers; the alias failure needs two layers that spell a key differently.", "anchors": ["src/model/de.rs: deserialize_struct, deserialize_identifier, ValueMap", "src/model/ser.rs: serialize_struct", "src/config.rs: build_value"]}
{"id": "C91", "title": "Types serde reads through a buffer: flatten, untagged and internally tagged enums", "statement": "Such types see the value through serde's buffer, not through this crate's conversions. Buffering fails exactly if a 128-bit integer is anywhere inside, and otherwise loses nothing. An untagged enum is read as the first of its variants that fits the buffered value, and never panics; an internally tagged one as the variant named by the tag (converted to text), read from the other entries (inside another buffered type the tag is not converted: a text names the variant, a u64 counts them from zero); a struct with flattened fields reads its own fields directly and the flattened ones, in order, from the other entries, each flattened struct taking its own keys, a flattened map seeing all that are left. From the buffer no text is read as a number or boolean: a configuration whose last layer with a key holds a text (any environment variable) cannot be read into a flattened number of that name. Booleans, integers, f64, char, text and options, lists, maps and structs of them that can be read from the buffer read the same directly; f32 of a large integer does not, and the buffer also takes a list for a struct. A plain enum panics when read directly and does not from a buffer.", "quantifier": "all values, enum shapes, field lists, flattened parts, element types (arbitrary readers), and layer combinations", "why_tests_cant": "All types times all values; the failures need a text from the environment, or a 128-bit integer in an unrelated entry, under a flattened or tagged type.", "anchors": ["src/model/de.rs: deserialize_any, deserialize_map, deserialize_enum, deserialize_identifier, ValueMap, ValueSeq", "src/config.rs: build_value"]}
{"id": "C92", "title": "What any visitor is shown", "statement": "For every method of the deserializer, every value and every visitor (derived, standard or hand-written), a Value used as a serde deserializer either calls exactly one method of the visitor and returns what that returns, unchanged, or returns an error, or panics; which, and with which argument or error, depends only on the method and the value. deserialize_any and deserialize_ignored_any show the value as it is, and what they show determines the value; scalar methods show what try_into converts to or fail with its error; options show null as None and everything else as Some; newtypes are transparent; lists, maps and null are shown to methods that want them and rejected elsewhere with an error naming the value; bytes and enums panic, and nothing else does; announced names, lengths and field lists are ignored. Reading a type is its method with its visitor.", "quantifier": "all methods with all arguments, all values, all result types and all visitors", "why_tests_cant": "Visitors are arbitrary user code; independence of the visitor is a statement about all of them.", "anchors": ["src/model/de.rs: impl Deserializer for Value, all methods", "src/model/visitor.rs: ValueVisitor"]}
{"id": "C93", "title": "Standard library types in a configuration", "statement": "A HashSet is read exactly from a list all of whose elements can be read, keeping one of each group of equal ones. A NonZero integer exactly from what converts and is not zero. Address-like types (read with FromStr) exactly from scalars whose text parses, a PathBuf from any scalar as its text. A Duration exactly from a map with the entries secs and nanos and no other that convert to u64 and u32 and whose total fits, as that many nanoseconds, normalised; it never panics, and a serialized Duration comes back as itself. A Range exactly from a map with start and end and no other. Result, Bound, OsString and CString panic whatever the value; a borrowed &str is never read. Where the last layer with a key holds a text (any environment variable), addresses, paths and non-zero integers can be read from it, durations, ranges and sets never.", "quantifier": "all values, element decoders, parsers, integer types and layer combinations", "why_tests_cant": "All values and all FromStr implementations; the failures need particular combinations of type and layer.", "anchors": ["src/model/de.rs: deserialize_seq, deserialize_struct, deserialize_str, deserialize_string, deserialize_enum, deserialize_byte_buf", "src/config.rs: build_value"]}
{"id": "C94", "title": "A program cannot observe the order of a HashMap", "statement": "Take any program that uses the values and configurations of this crate (creating, get/at/set/push, len and kinds, iterating arrays, ==, merge, conversions, serializing and deserializing, typed reading of any type without serde attributes (for those see C99, C143 and C144) whose maps have text keys, registering layers, reading layers, build_value), choosing each call from everything it has been told so far, terminating or not. Run it twice with all hash maps, including those inside memory layers and the table of layers, stored in different orders, reordered anew before every call: it is told the same, makes the same calls and holds indistinguishable values, for as long as both runs go. A run never gets stuck. Only these depend on the order: the Display text of a value in which some map has two or more entries, and which failure (or panic) a deserialization with several defects reports.", "quantifier": "all programs, run lengths, initial holdings, worlds and reorderings at every step", "why_tests_cant": "The orders come from per-map random seeds; a test sees one, and the number of programs and reorderings is unbounded.", "anchors": ["src/model/value.rs: Value::get, set, at, push, len, PartialEq, Display", "src/model/merge.rs: merge, clone_merge", "src/model/into.rs", "src/model/ser.rs: de.rs", "src/config.rs: push_layer, add_memory_layer, build_value"]}
{"id": "C95", "title": "What a layer holds is a floor; defaults are never missing", "statement": "The built value has something at every key path where any readable layer has something: a later layer can replace it but not remove it, unless some later layer has a non-map at a path leading there (and then a still later map shows only its own keys). In particular a configuration made by create_config! — which always succeeds — has every key of its defaults in every value ever built from it, whatever files and variables have become, and build_value(true) never fails; so a struct whose fields all have defaults never misses a field: it can be read exactly if each of its fields can be read from the value under its key, and otherwise reports what one of the fields reports. The example program examples/create_config.rs never panics, always prints a map with key1, key2 and key3, changes no existing file and creates at most one.", "quantifier": "all registrations, worlds (file system and environment, at creation and at each later build), macro arguments, key paths, struct types", "why_tests_cant": "Quantifies over every environment, file content, format behaviour and later change of the world, and every set of layers", "anchors": ["src/config.rs: build_value", "src/config_macro.rs: create_config!", "src/model/merge.rs: merge", "src/model/de.rs: deserialize_struct", "examples/create_config.rs: main"]}
{"id": "C96", "title": "A program that writes files cannot observe the order of hash maps either", "statement": "Take any program that uses the API, including `write_value`, the four searches, `create_config!` with defaults from its variables, layers of its own that cannot tell such worlds apart, and every call of C94, while other processes change files, environment variables and directories between its calls. Run it twice with all `HashMap`s ordered differently before every call. If every enabled format reads alike what it prints for two orders of one value, no place on disk is reached through paths of two formats, and the OS accepts all bytes, then both runs make the same calls, are told the same (except the texts of parse and print errors), hold the same values and configurations up to the order, and leave disks that differ at most in the bytes of files which every file layer reads alike. The bytes themselves do depend on the order, and with a format that is not blind to the order the claim fails.", "quantifier": "every program (a function from everything it has been told to the next call), every sequence of outside changes, every initial holdings, world, build and pair of formats, every choice of orders at every call, any number of calls", "why_tests_cant": "the order of a HashMap comes from a random seed per process; a test sees a few seeds and a few programs, and a dependence may need a file written in one order to be read back many calls later", "anchors": ["src/model/value.rs: Value", "src/config.rs: BakuninConfig", "src/config_layer/layer_file.rs: FileConfigLayer", "src/config_layer/handlers/toml.rs", "src/config_macro.rs: create_config", "src/file_finder/finder.rs: FileFinder"]}
{"id": "C97", "title": "Adjacently tagged enums can be written but never read", "statement": "A type with `#[serde(tag = \"t\", content = \"c\")]` serializes to a map with the variant's name under the tag and the content, if any, under the content key. Deserializing such a type from any value never succeeds: without the tag (or if the value is no map) it is an error, and with the tag there the program panics (`deserialize_enum` is unimplemented), unless an unknown entry is denied or a 128-bit integer in the content is met first, which is an error; for such a value it depends on the order of the hash map whether it is an error or a panic. So a configuration struct with a field of such a type cannot be read as soon as any layer has an entry for it. Inside a type that serde buffers (flatten, untagged, internally tagged) the same enum is read back as written; there it is also read from a list of exactly two elements, the variant's name or its number (from 0) and the content, and from nothing that is neither a map nor such a list.", "quantifier": "all tag and content keys, all variants of every shape and payload types, all values with unique keys, all configurations (builds, registrations, worlds), owned and borrowed buffers", "why_tests_cant": "a test tries one enum on a few values and one order of the hash map; that no value at all can be read, and that panic or error may depend on the order, is a statement about all of them", "anchors": ["src/model/de.rs: deserialize_struct", "src/model/de.rs: deserialize_enum", "src/model/de.rs: ValueMap", "src/model/ser.rs: serialize_unit_variant"]}
{"id": "C98", "title": "What is saved of types serde buffers is read back", "statement": "For types with `flatten` (of structs and maps), `untagged`, `tag`, `tag` with `content` and plain enums inside them, the calls serde's derived Serialize makes are accepted, and reading what they wrote gives the data back: directly (except the enums the deserializer leaves unimplemented) and from serde's buffer, provided each part is kept, no key is written twice, a flattened map comes last and is the only one, and, for an untagged enum, no earlier variant fits what was written. If an earlier variant of an untagged enum does fit, the data is not what is read.", "quantifier": "all structs, enums, variants of every shape and payload types, all data held by them, reading directly or from an owned or borrowed buffer", "why_tests_cant": "a test saves and loads a few values of one type; whether anything is lost depends on all fields, variants, their order and all contents", "anchors": ["src/model/ser.rs: ValueSerializer", "src/model/de.rs: deserialize_map", "src/model/de.rs: deserialize_any", "src/model/de.rs: deserialize_struct"]}
{"id": "C99", "title": "Reading a typed value does not depend on the order of hash maps", "statement": "Two values that are equal up to the order of their maps are both refused or both read, as the same data up to the order of maps in it, for all scalars, options, newtypes, sequences, maps, structs, plain, untagged and internally tagged enums, flattened structs and maps of such types, read directly or from serde's buffer, and for adjacently tagged enums in an owned buffer, or if their contents read the same from owned and borrowed buffers. Otherwise it can depend on the order: an adjacently tagged variant of `()` with an empty map as content is refused from a borrowed buffer if the tag comes first and read if the content does.", "quantifier": "all types built from these, to any depth, all pairs of values equal up to the order of maps, with unique keys", "why_tests_cant": "the order of a HashMap is random for each run, so a test sees one of factorially many; the claim is about all pairs of orders at all depths for all types", "anchors": ["src/model/de.rs: ValueMap", "src/model/de.rs: deserialize_map", "src/model/de.rs: deserialize_struct", "src/model/de.rs: deserialize_any", "src/model/value.rs: Value::Map"]}
{"id": "C100", "title": "Chaining is registering in place", "statement": "A chain of with_layer, with_file_layer, with_environment_layer and with_memory_layer, started from any configuration, succeeds exactly if every file it names has a supported extension, and then gives exactly the configuration the corresponding push_layer/add_* calls give. Otherwise it ends with the UnsupportedExtension error of the first unsupported file, naming its extension, whatever comes later. Registering in place instead goes on: the unsupported files count as not named at all.", "quantifier": "all starting configurations, all sequences of calls of any length with any names, paths, values, prefixes and user-defined layers, all builds and formats", "why_tests_cant": "A test tries a few chains; the equivalence is over all sequences of calls and all starting configurations.", "anchors": ["src/config.rs: with_layer, with_file_layer, with_environment_layer, with_memory_layer, push_layer, add_file_layer"]}
{"id": "C101", "title": "Several processes start for the first time at once", "statement": "Any number of processes run the create_config! of one program at the same time, their directory lookups, searches, existence checks, opens and (arbitrarily split) writes interleaved in any way. At every moment, in whatever world they started and whoever was killed: no existing file was changed, files only appeared at first candidates of layers marked init, and each of their bytes is zero or what one of the processes would write there. On a fresh machine, if the enabled formats print the same text for the defaults of each process (whatever order its HashMap has): a file whose last opener finished holds exactly the text of the defaults; and once all are done, every init layer's file is there, every process builds its defaults at every path (with TOML: all but a None inside a table of a list), and so does the n-th later run, which no longer changes those files. If the printed texts depend on the HashMap's order, the file can end up as a mixture that neither the processes nor any later run can build from without skipping errors.", "quantifier": "all programs with distinct layer names, all (possibly infinite) sets of processes, all orders of defaults, all interleavings, all splits of the writes, all moments and all deaths; for the second half all worlds in which the candidates do not exist and the environment sets nothing, all formats that are faithful (or TOML-like) on the defaults, all later runs", "why_tests_cant": "The interleavings of any number of processes and the places where the kernel splits writes cannot be enumerated or provoked by a test.", "anchors": ["src/config_macro.rs: create_config!", "src/config_layer/handlers/toml.rs: write", "src/config_layer/handlers/json.rs: write", "src/config_layer/layer_file.rs: write_value"]}
{"id": "C102", "title": "Editing a TOML layer and saving the built value as TOML", "statement": "Where a configuration has a TOML file layer, saving through it and building again behaves as with a format that has null, apart from None. (1) Saving the value that was just built: everything it showed is still shown, up to the kind of integers; a None entry, too, unless it is below a list and no later layer speaks there, in which case it is gone. Something new is shown only from a layer before the file, below a place where the old file had something else than a table and a later layer has a table; so without such a place, and in particular through the last layer, nothing changes; and a second save never shows anything new. (2) Reading the layer, changing the value and writing it back leaves the built value as it was at every path along which the edit changed nothing. (3) Setting one key and writing back: the new value is shown under that key wherever it is set and no later layer speaks; where it is unset (in particular when the key was set to None) the last earlier layer that speaks shows through, or nothing; where a later layer speaks, and under every other key, nothing changes.", "quantifier": "all configurations of the crate's own layers with a file layer whose format behaves like TOML, all files, all values TOML can hold, all keys, all paths, both settings of skip_on_error", "why_tests_cant": "the interaction of omitted None entries with the layers below and above depends on where every layer speaks; a test sees a few layer stacks and a few paths", "anchors": ["src/config.rs: build_value", "src/config_layer/layer_file.rs: FileConfigLayer read_value/write_value", "src/config_layer/handlers/toml.rs", "src/model/value.rs: set", "src/model/merge.rs: merge", "src/model/ser.rs", "src/model/de.rs"]}
{"id": "C103", "title": "Several programs that edit one settings file: last saver wins, except where they take turns", "statement": "Let any number of programs load a file layer (read_value), set keys in the value they hold (set) and save it (write_value), as often as they like and interleaved in any way. At every point the file can be read, and it is what it was at the beginning with exactly the settings made that a simple log says are in it: loading takes over the settings in the file, setting adds one, saving replaces all settings in the file by one's own. So after a program saved, the file has, under every key this program did not set since it last loaded, what it had at that moment: a setting that another program saved in between is lost without any error. If the programs take turns (each loads, sets and saves with nobody else's save in between) no setting is lost, and where two set one key the later setting stays. With a TOML-like format the settings are kept except that a key set to None is removed. Nothing else on the disk changes, and a configuration over the file shows these settings wherever no later layer speaks.", "quantifier": "all numbers of programs, all sequences of load, set and save calls in any interleaving, all keys, values, starting files and formats that keep what they print (up to None entries), all configurations over the file", "why_tests_cant": "A test runs one program with one schedule; the lost update shows up only in some interleavings of several programs, and that nothing is lost when they take turns is a claim about every history.", "anchors": ["src/config_layer/layer_file.rs: ConfigLayer for ConfigFileLayer (read_value, write_value)", "src/model/value.rs: Value::set", "src/config.rs: BakuninConfig::build_value"]}
{"id": "C104", "title": "Editing a settings file while things go wrong: memory is unaffected and the next successful save repairs the file", "statement": "Let any number of programs load, set and save as in C103, while at any moment anything may happen to the file: a save fails half-way (disk full) or its program is killed at any point of it, a user edits the file by hand or deletes it; programs end and others start. At every point, what each program holds is exactly the map it found when it loaded with the settings made in it since. Whenever the file can be read as a map, it is the map it was found to be after the last outside change (an empty one if it was deleted), or what the last successful saver held. A program that loaded the file earlier and saves successfully repairs it, whatever happened in between: afterwards the file is what it was when this program loaded it, with the program's own settings since then. (A program that loads what a killed save left behind may find fewer settings without any error, if the beginning of the text happens to be a valid text; saving then makes the loss permanent.)", "quantifier": "all numbers of programs, all histories of load, set, save, outside changes (in particular interrupted saves at every point) and ends of programs, all values, starting files and formats that keep what they print (up to None entries)", "why_tests_cant": "Crash points, failures and outside edits can fall between any two of the calls of several programs; tests try a handful of schedules and cannot stop a write in the middle.", "anchors": ["src/config_layer/layer_file.rs: ConfigLayer for FileConfigLayer (read_value, write_value)", "src/config_layer/handlers/toml.rs: TomlFileHandler::read, write", "src/model/value.rs: Value::set"]}
{"id": "C105", "title": "Upgrades: the first version's defaults stick", "statement": "No program that calls create_config! (with distinct layer names) ever changes a file that exists, through any number of runs of any such programs. From a clean start, let a first version of a program run, then any sequence of versions with other defaults (upgrades, downgrades), then a last one: all succeed, the disk stays as the first version left it, and the last version's value is built. If the program finds the settings file, then wherever the first version's defaults say something that is what shows (a default changed since has no effect), and wherever they say nothing the last version's defaults show (new keys appear); if it finds none, the last version's defaults show. A settings file is left if some layer marked init: true has a first candidate the OS lets it create. With TOML, which drops None entries, a default that was None lets the later versions' default show (except inside a list). In terms of types: an old (non-map) default reads back as the old value, a new key as the new default. A version that looks in other places (another format feature, file name or directories) starts from nothing.", "quantifier": "all programs, all defaults of all versions, all sequences of versions, all worlds that are a clean start for the first version, all formats that print its defaults and read them back faithfully, both values of skip, all paths", "why_tests_cant": "The claim ranges over all sequences of versions with arbitrary defaults and over all paths of the built value; a test sees one upgrade.", "anchors": ["src/config_macro.rs: create_config", "src/config.rs: build_value", "src/model/merge.rs", "src/config_layer/layer_file.rs: FileLayer"]}
{"id": "C106", "title": "The documented directories of Linux and macOS", "statement": "The home directory is $HOME, or what the user database says if that is empty or not set. Without one no OSDirectory resolves, not even the working directory or an explicit path; with one all resolve, except possibly the working directory. On Linux UserConfig and UserPreferences are $XDG_CONFIG_HOME if that is an absolute path, and .config in the home directory if it is unset, empty or relative; on macOS they are Library/Application Support and Library/Preferences in the home directory. AppConfig(a) and AppHome(a) are the entry a of the configuration and home directory. A create_config! layer at UserConfig looks for $XDG_CONFIG_HOME/name.ext for each enabled format and nothing else. Of the environment only HOME and XDG_CONFIG_HOME matter.", "quantifier": "all environments (any order, repeated names, undecodable bytes), user databases, working directories, application and file names", "why_tests_cant": "The claim ranges over all environments; a test process has one.", "anchors": ["src/file_finder/os_directory.rs: OSDirectory, to_path_buf (documentation comments)", "src/config_macro.rs: create_config"]}
{"id": "C107", "title": "The log of a configuration: no layer is skipped without a warning", "statement": "Logging has no influence on results. With errors skipped, build_value warns of exactly the layers that could not be read, once each, in order of registration, with the layer's name and error; it warns of nothing exactly if the build without skipping succeeds, and then both builds give the same value. A build without skipping warns of nothing. Below warnings, the log of a build is exactly: the path of each file read, the prefix of each environment layer read, each variable whose name is not text, and each prefixed variable whose value is not text; nothing after the layer that ended the build. Registering writes only that a name is taken, once for each repetition, and not as a warning.", "quantifier": "all histories of registrations (built-in and user layers, repeated names), worlds, formats, and both values of the skip flag", "why_tests_cant": "The claim equates the whole log with what happened, for every configuration and world; tests of the crate never look at the log.", "anchors": ["src/config.rs: push_layer, build_value", "src/config_layer/layer_env.rs: read_value", "src/config_layer/handlers/toml.rs: read, write"]}
{"id": "C108", "title": "Configuration values do not get into the log", "statement": "Two builds write the same log whatever the memory layers hold, whatever text the environment variables have as values and whatever the files contain, as long as the same files exist and the same layers fail with the same errors. Writing a value tells the log only the format and the path. What does get in: the value of a prefixed variable that is not text (below the level of warnings), and the name of any variable that is not text.", "quantifier": "all pairs of configurations with the same layer names, kinds, prefixes and paths, and all pairs of worlds", "why_tests_cant": "Absence of a flow from any secret to any record is a statement about all pairs of runs.", "anchors": ["src/config.rs: build_value", "src/config_layer/layer_env.rs: read_value", "src/config_layer/handlers/toml.rs: read, write", "src/config_layer/layer_file.rs: read_value"]}
{"id": "C109", "title": "The log of create_config!: silence means every layer is in place", "statement": "The macro's log is, layer by layer: a warning for each directory that cannot be determined; a warning if none can, or if no format is enabled; nothing if the chosen file has no enabled format; else a trace if the name is taken, and, if the layer is to be initialised and its file is missing, a trace of the attempt to write and a warning, naming the layer, if that fails. Nothing else is warned of. With distinct names other than `default` and a plain file name, a run without warnings has every layer registered with one of its candidates, the file of every init layer exists, and every new file holds the whole text of the defaults. But a file name such as `..` leaves every layer out without any record. The warning that no file can be looked for never names the layer, and the macro's own two warnings appear under the caller's module. The traces of files read and written give the format and the path.", "quantifier": "all macro arguments, worlds, formats and features", "why_tests_cant": "Tests never look at the log, and the claim covers every combination of directories, existing files and failures.", "anchors": ["src/config_macro.rs: create_config", "src/file_finder/os_directory.rs: with_os_directory", "src/config.rs: push_layer, add_file_layer, get_layer"]}
{"id": "C110", "title": "A program that starts without a warning has loaded everything", "statement": "For a program whose layer names are distinct, none being `default` (nor `environment`, if it reads the environment), with a plain file name: if neither create_config! nor the following build_value(skip_errors = true) logs a warning, nothing was left out. build_value gives the same value with and without skip_errors, and at every path this shows what the last of these that speaks of the path says: the defaults, the file of each single layer in the order written, the environment. Each layer's file is one of its candidates, in the format of its extension; it exists if the layer is to be initialised or any candidate existed at the start; and, if it exists, its whole text was read and parsed.", "quantifier": "all macro arguments as described, worlds (disks, environments, directories), formats and features", "why_tests_cant": "The claim is about the absence of every failure: an unreadable file, an undeterminable directory, a failed initialisation or a blank prefix in any layer must never pass without a warning.", "anchors": ["src/config_macro.rs: create_config", "src/config.rs: build_value", "src/config_layer/layer_file.rs: read_value", "src/config_layer/layer_env.rs: read_value"]}
{"id": "C111", "title": "When the order of layers is irrelevant", "statement": "Two maps can be merged into every map in either order without a visible difference if and only if they concur: at every chain of keys at which both hold something, both hold a map or they hold the same thing. For a whole configuration: if two configurations hold the same layers in different orders, one builds exactly if the other does, and the built values show the same at every path about which no two readable layers say different things; so if all maps the layers yield concur pairwise, the order makes no difference at all.", "quantifier": "all pairs of map values and all receivers; all configurations, all reorderings of their layers, all worlds, both flags, all paths", "why_tests_cant": "It ranges over all permutations of any number of layers and gives an exact condition (if and only if), whose failing direction needs a witness for every conflict.", "anchors": ["src/model/merge.rs: Value::merge", "src/config.rs: build_value"]}
{"id": "C112", "title": "What one more layer can and cannot achieve", "statement": "A map a can be turned into t by merging some map into it if and only if t drops nothing: wherever a and t both have a map, every key of a's is a key of t's. In that case merging t itself gives t. So a layer registered last under a new name can make the configuration build t exactly if t drops nothing of what was built before, and a memory layer holding t does it; no layer can remove an entry, only replace it or a table around it.", "quantifier": "all map values a and t and all overlays; all configurations, worlds and layers", "why_tests_cant": "The negative half says that no overlay whatever achieves something; the positive half must work for every target.", "anchors": ["src/model/merge.rs: Value::merge", "src/config.rs: push_layer, build_value"]}
{"id": "C113", "title": "When a layer can be left out", "statement": "Leaving a layer out of a configuration changes nothing at a path about which it says nothing or about which a later layer speaks; if the build succeeds with the layer it succeeds without it. Where the layer is the last to speak, it is what is read; and with the layer left out, one reads what the layers before it alone would build.", "quantifier": "all configurations, all positions of the layer, worlds, flags and paths", "why_tests_cant": "It relates two configurations for every layer list and every path.", "anchors": ["src/config.rs: build_value", "src/model/merge.rs: Value::merge"]}
{"id": "C114", "title": "Typed settings are layered field by field", "statement": "Take a struct of settings all of whose fields are optional, each a scalar, list or tuple, a HashMap from text to these (a table), or again such a struct (a section). If such settings can be read from each of two maps, and the second has no entry None, then they can be read from their merge, and the result is the overlay of the two: each field from the second if it gives it, else from the first, sections field by field, tables entry by entry. So the settings read from a built value are those of the readable layers, overlaid in order: every field and table entry reads as the last layer gives it that gives it at all. And the struct without the Options can be read from the built value exactly if the layers together give every field, and then holds exactly these. (With a None entry in an upper layer this fails: it is read as `not given`, yet hides the lower layer.) One layer that gives everything is enough for the full settings to be readable from the built value, whatever the other layers leave out.", "quantifier": "all such struct types, nested to any depth, all configurations of any number of layers from which they can be read, worlds and flags", "why_tests_cant": "It is a homomorphism between merging maps and overlaying typed structs, for every type, nesting and number of layers, through all conversions.", "anchors": ["src/model/merge.rs: Value::merge", "src/model/de.rs: deserialize_struct, deserialize_option", "src/config.rs: build_value"]}
{"id": "C115", "title": "Saving settings given in part into a TOML layer", "statement": "When a program serializes settings all of whose fields are optional, some given and the others None, and saves them through a TOML file layer of its configuration, then a rebuild reads, field by field (sections and tables included): what the last later layer gives for the field, if one does; else what was saved, if it was given; else what the last of the earlier layers gives. In particular saving None into a TOML layer does not hide the defaults (an entry None in a memory layer does).", "quantifier": "all settings types with optional fields and nested optional sections, all values of them, all configurations of built-in layers with a TOML file layer at any position, all disks on which the write succeeds", "why_tests_cant": "ranges over all types, all values, all positions of the layer and all contents of the other layers", "anchors": ["src/model/ser.rs: ValueSerializer", "src/model/de.rs: deserialize_struct, deserialize_option", "src/config_layer/handlers/toml.rs: TomlFileHandler", "src/config.rs: build_value", "src/model/merge.rs: Value::merge"]}
{"id": "C116", "title": "Reading a map with typed keys", "statement": "A HashMap<K, V> with K bool, an integer type, char or String can be read exactly from a map every key of which denotes a K (true/false in any case, a decimal number in range of a type of at most 64 bits, any non-empty text for a char, any text for a String) and every value of which can be read as V; anything else is an error. The result has every key once, and under it what the last entry in iteration order holds whose text denotes that key; where no two texts denote one key no entry is lost and the order does not matter.", "quantifier": "all key types, all value types, all values, all iteration orders", "why_tests_cant": "ranges over all texts that denote keys, all value types and all maps", "anchors": ["src/model/de.rs: deserialize_map, ValueMap"]}
{"id": "C117", "title": "Settings stay readable when their type changes", "statement": "A program may change the type of its settings from one version to the next: drop fields, add fields of type Option, reorder fields, make a field that is never None optional, wrap it in a newtype or unwrap it, widen an integer type (up to 64 bits) or f32 to f64, shorten a tuple; also inside lists, maps and structs that refer to each other to any depth. Whatever value the old type reads, if it has no key that the old type does not know, the new type reads too, with the same content (same numbers, even from texts or floats) and None in the added fields; if both read a value they agree wherever both look. In particular what the old version saved to a TOML file, or finds in its configuration layers none of which has unknown keys, the new version reads. A key that happens to have the name of an added field can stop it.", "quantifier": "all pairs of old and new types, all values, all saved settings, all configurations", "why_tests_cant": "ranges over all ways two versions of a type may differ, at any nesting, and over all stored values", "anchors": ["src/model/de.rs: deserialize_struct, deserialize_option, ValueMap, ValueSeq", "src/model/into.rs: TryInto", "src/model/merge.rs: Value::merge", "src/config.rs: build_value"]}
{"id": "C118", "title": "Settings that were read can be saved and read again", "statement": "Whatever value tree a typed read succeeds on, the result is of the type asked for: every field of a struct once and in order, every list element, map key and number of its type. If the type holds no Value, bytes or enum and every Option can be told from None, the settings read can be serialized again, and reading the result gives the same settings; with a Value in them too, if what was read held no 128-bit integer. A program that reads its settings from a TOML file and saves them to that file again therefore reads the same settings the next time; but every key of the file that its type does not know, at any depth, is gone, and another program (or version) that has it as an optional field then finds nothing there.", "quantifier": "every value tree and settings type (recursive ones too), every file content, world and path; every other type that reads the file afterwards", "why_tests_cant": "what a typed read may return depends on the whole, unbounded value and type; a test round-trips one struct", "anchors": ["src/model/de.rs: Deserializer for Value", "src/model/ser.rs: Serializer", "src/config_layer/layer_file.rs: FileConfigLayer read_value, write_value", "src/config_layer/handlers/toml.rs: TomlFileHandler"]}
{"id": "C119", "title": "Settings depend only on what their type names", "statement": "Reading a value as a type depends only on the paths at which the type looks: the fields of its structs (and no other key), the elements of its lists, those elements of an array that a tuple has, the entries of its maps, everything inside a Value. Two values that agree there are read alike, whatever else they hold and in whatever order their maps hold it (unless two text keys denote the same key of a typed map). A change below one field leaves all other fields as they are. So a layer that says nothing about these paths, or only where a later layer speaks, can be left out at any position without changing the settings; environment variables that do not land on a field might as well not be set; and two configurations whose layers agree at these paths, one by one, give the same settings.", "quantifier": "every settings type (recursive ones too), all values, all configurations with any number of layers, worlds and flags, all environments", "why_tests_cant": "the irrelevant content is arbitrary and unbounded, at every depth and in every layer; a test tries a few extra keys", "anchors": ["src/model/de.rs: deserialize_struct, ValueMap, ValueSeq", "src/model/merge.rs: Value::merge", "src/config.rs: build_value", "src/config_layer/layer_env.rs: read_value"]}
{"id": "C120", "title": "Saving all settings pins them", "statement": "If a layer settles everything a settings type looks at and the layers after it say nothing there, the settings read from the configuration are those read from this layer alone, whatever layers come before it. So a program that reads its settings, finds none of the optional ones missing and saves them to a TOML file layer has pinned them: as long as that file reads the same and no later layer says anything about them, every configuration with this file as a layer gives the same settings, in this process or a later one, however the layers before it (new defaults in the program, a system-wide file, the environment) have changed. This holds for types without maps. Map fields are not pinned: an entry that an earlier layer has and the saved file lacks is read again, so removing an entry and saving does not remove it.", "quantifier": "every settings type without maps outside lists (recursive ones too), all settings of it, all earlier and later configurations, worlds and flags; for the map part every map field, key type and entry", "why_tests_cant": "what the earlier layers will hold in a later run is unknown when the file is saved and ranges over all values; a test fixes one", "anchors": ["src/config.rs: build_value", "src/model/merge.rs: Value::merge", "src/model/ser.rs: serialize_struct", "src/model/de.rs: deserialize_struct", "src/config_layer/layer_file.rs: write_value", "src/config_layer/handlers/toml.rs: TomlHandler"]}
{"id": "C121", "title": "A built configuration can be exported to one file", "statement": "Everything in a built value comes from a layer: what is at a path is at the same path of one of the layers that could be read. So a built value is nested no deeper than its deepest layer and has no more places than all layers together; if TOML can hold every layer it can hold the built value (an environment layer always is a flat map of texts). Written to a TOML file, which then never fails for reasons of format, and read back on its own, it holds the same, up to the kind of integers and without the entries that are None. Settings (of a type without Value, in which only Option fields can be None) that can be read from the configuration are read, the same, from every configuration, on any machine and at any later time, that has the exported file as a layer and otherwise says nothing about them. If the configuration has no None entries, so are settings of any type, up to the kind of the integers in a Value inside.", "quantifier": "all registrations of any number of layers, worlds, flags, settings types (recursive ones too), all importing configurations and worlds", "why_tests_cant": "ranges over all layer combinations and all importing configurations; depth and size bounds are universal", "anchors": ["src/config.rs: build_value", "src/model/merge.rs: Value::merge", "src/config_layer/layer_file.rs: write_value, read_value", "src/config_layer/layer_env.rs: read_value", "src/config_layer/handlers/toml.rs: TomlHandler", "src/model/de.rs: deserialize_struct"]}
{"id": "C122", "title": "What the environment can do to typed settings", "statement": "Put an environment layer with a prefix that is not blank last. A field of the settings on which a variable lands is read from the text of the last such variable and from nothing else; every other field is read as if there were no environment layer. So the settings can be read exactly if each such text fits its field's type and the other fields can be read without the environment. A text fits: String and Value always; char unless empty; bool if it is true or false in any case; an integer type of at most 64 bits if it spells a number in range; floats if it is a numeral or nan, inf, infinity; Option and newtypes like what they wrap; a list, tuple, map, struct, unit, enum or 128-bit integer never, so no variable can set anything inside a section, only replace the section and make the settings unreadable. A key can be reached by a variable exactly if it does not begin with the prefix and does not end in a blank. Hence settings whose reachable fields are all String or Value (possibly in Option or newtypes) cannot be made unreadable by any environment, and any other settings can be, by one variable set to the empty text, also in a program that uses create_config! (which itself never fails).", "quantifier": "all configurations with any layers below, all environments, prefixes, settings types (fields of any type, nested or recursive) and worlds", "why_tests_cant": "the claim is about every environment and every type: that no variable can break safe settings, and that for every other type some variable does", "anchors": ["src/config_layer/layer_env.rs: EnvironmentConfigLayer::read_value", "src/model/merge.rs: Value::merge", "src/model/de.rs: Deserializer for Value, deserialize_struct, deserialize_option", "src/model/into.rs: TryInto", "src/config_macro.rs: create_config!"]}
{"id": "C123", "title": "Everything stays inside the given directories", "statement": "If the file name given to FileFinder or create_config! is plain (not empty, no path separator, not `.` or `..`) and the extensions are not empty, then: every search returns only paths of the form <given folder>/<one component>, and its answer does not depend on what exists anywhere else. create_config! registers, besides the defaults and the environment, only files directly in the directories written in the call; running it, and then saving any values through any layers of its configuration, changes nothing on the disk but files directly in those directories (whatever the layer names are, also where a repeated name makes init overwrite a file); and the configuration, those files and every later build_value are the same in any two worlds that hold the same files directly in those directories (and the same prefixed variables). A name with a separator does lead out: the name a/s is looked up as s in the folder a seen from the given one, so that `../x` or `/a/x` makes create_config! write outside the given directories.", "quantifier": "all finders, file names, folders, extensions, directory lists, layer names, init flags, default values, contents of the disk, formats, histories of saves", "why_tests_cant": "It speaks of all paths of a file system that are not touched, and of pairs of worlds that differ arbitrarily elsewhere.", "anchors": ["src/file_finder/alg_find_first.rs: find_first", "src/file_finder/alg_find_last.rs: find_last", "src/file_finder/alg_find_all.rs: find_all", "src/file_finder/alg_find_all_or_first.rs: find_all_or_first", "src/file_finder/os_directory.rs: OSDirectory::to_path_buf", "src/config_macro.rs: create_config!", "src/config_layer/layer_file.rs: FileConfigLayer::write_value"]}
{"id": "C124", "title": "Building again after a settings file was changed from outside", "statement": "A configuration is built, one of its files is then changed by someone else in any way (edited, replaced, deleted, created, damaged, made unreadable), and the same configuration is built again. Nothing changes at a path about which a later layer speaks, nor at a path about which the file says the same as before; where no later layer speaks, what the file now says is shown. While the file is missing, the configuration builds exactly what it would without that layer; while it cannot be read, the same with skip_on_error, and without it the build fails with the file's error (an earlier layer's, if that fails too). Once the file has its old content back, exactly the old value is built, whatever happened in between. Typed settings stay readable and the same if all this holds at the paths where their type looks.", "quantifier": "all configurations of built-in layers, positions of the file's layer, old and new states of the file, paths, settings types", "why_tests_cant": "It quantifies over all pairs of states of a file and all paths that stay untouched.", "anchors": ["src/config.rs: BakuninConfig::build_value", "src/config_layer/layer_file.rs: FileConfigLayer::read_value", "src/model/merge.rs: Value::merge", "src/model/de.rs: Deserializer for Value"]}
{"id": "C125", "title": "Cascading settings files: the last file found that speaks wins, and missing ones do not matter", "statement": "A program lists settings files with find_all (with or without missing files) or find_all_or_first and registers each, in the order listed, as a file layer, between other layers and under distinct names. Then at every path the built value shows what the last candidate file (folders in order, extensions in order) that exists, has an enabled format and says something about the path says, unless a layer registered after the files speaks about it; where none of them speaks, it shows what the layers registered before build. It makes no difference to the value built, nor to the error, which of these searches listed the files and how they were named; and if find_all finds nothing, registering what the other searches list builds the same as registering no file at all. Without skip_on_error the first existing file that cannot be read decides the error.", "quantifier": "for all finders, disks, environments, build features, codecs, other registrations, naming functions, paths and values of skip_on_error", "why_tests_cant": "the finder and the configuration are separate parts that only meet in the user's program; a test fixes one list of folders and one content of the files", "anchors": ["src/file_finder/alg_find_all.rs: find_all", "src/file_finder/alg_find_all_or_first.rs: find_all_or_first", "src/config.rs: BakuninConfig::add_file_layer, BakuninConfig::build_value", "src/config_layer/layer_file.rs: FileConfigLayer::read_value", "src/model/merge.rs: Value::merge"]}
{"id": "C126", "title": "The work and the stack of merging depend on the overlay and what it replaces", "statement": "merge looks up exactly the entries of the overlay whose chains of keys lead through maps on both sides, each once, and inserts (and clones) exactly those of them that are not maps on both sides, each once; it never runs through the receiver. So the work of a merge (lookups, insertions, values cloned; the dropping of what is replaced aside) is at most three units for each value inside the overlay, however large the receiver is, and the work of build_value is at most three units for each value inside the layers that can be read. On a stack that takes n nested calls (of merge, clone or drop), a merge of two maps goes through exactly if the overlay, and everything in the receiver that the overlay speaks about, is nested less than n deep; the rest of the receiver may be as deep as it likes. build_value goes through if every layer that can be read is nested less than n deep, and overflows the stack if it gets to one that is not.", "quantifier": "for all receivers, overlays, configurations, layers, worlds, values of skip_on_error and stack sizes", "why_tests_cant": "bounds on work and recursion for arbitrarily large and deep values", "anchors": ["src/model/merge.rs: Value::merge", "src/model/value.rs: Value (derived Clone, Drop)", "src/config.rs: BakuninConfig::build_value"]}
{"id": "C127", "title": "Programs with different settings types share one settings file", "statement": "Let any number of programs (or versions of one program), each with a settings struct of its own, share one TOML file: each starts from settings of its own or loads the file layer (read_value, deserialize), changes fields, and saves (serialize, write_value), as often as it likes, interleaved in any way. If a field that two have is of the same type in both, and a field that one lacks is an Option in the others, then after any save, and from then on at every moment, every one of them can load the file and finds in each of its fields exactly what a simple log says: loading takes over the table in the file, saving puts one's own fields in its place with nothing under the names one does not know. So a field the last saver does not have is None for everybody, without any error; a field it has and did not change is back to what it was when the saver loaded; and if programs that have the field take turns (load, change, save), no change to it is lost. If a field that the saver lacks is not an Option in another program, that program cannot load the file any more. Nothing else on the disk changes.", "quantifier": "every TOML-like format, every family of (possibly mutually recursive) struct types without Value, enum or bytes and with None only in Option fields, any number of programs, all settings, all interleavings of starts, loads, edits and saves of any length, every world", "why_tests_cant": "it ranges over all settings types, all settings and all interleavings of any number of programs; a test fixes two types and one schedule", "anchors": ["src/model/de.rs: Deserializer, deserialize_struct", "src/model/ser.rs: Serializer, serialize_struct", "src/config_layer/layer_file.rs: read_value, write_value", "src/config_layer/file_handler.rs: FileConfigLayerHandler"]}
{"id": "C128", "title": "On Windows the searches, file layers and directories keep the same rules over Windows paths", "statement": "Built for Windows, the four searches try for each folder in order each extension in order and return the first, the last, all, or all-or-the-first of the files `folder\\name.ext` that exist, with the same treatment of missing files, index overflow and validation as elsewhere. A plain name stays inside its folder (a backslash is added unless the folder ends in a separator or is a bare drive), also on a network share; its last dotted segment is replaced by the extension; a name that begins with a drive replaces the folder and one that begins with a separator keeps only the drive, or the server and the share; below a bare server a name is taken for the share and gets no extension. An extension that contains `\\` or `/` panics. A file layer is accepted exactly for an enabled format named in lower case by the extension. UserHome is the profile, UserConfig and UserPreferences the roaming application data, AppHome and AppConfig the entries of that name in them; if one known folder is missing nothing resolves. A layer of create_config! at UserConfig looks exactly for `{RoamingAppData}\\name.ext`. With the path rules of Unix the very same code gives the results of the other properties.", "quantifier": "all folders (drives, relative, rooted, network shares), file names, extensions, worlds, finders, feature sets and layer directories", "why_tests_cant": "Windows paths have prefixes, two separators and drive-relative forms; tests on one platform try a handful of spellings and never the other platform's rules.", "anchors": ["src/file_finder/os_directory.rs: OSDirectory, to_path_buf, with_os_directory", "src/file_finder/alg_find_first.rs: find_first", "src/file_finder/alg_find_last.rs: find_last", "src/file_finder/alg_find_all.rs: find_all", "src/file_finder/alg_find_all_or_first.rs: find_all_or_first", "src/file_finder/file_extension.rs: match_path", "src/config.rs: add_file_layer", "src/config_macro.rs: create_config"]}
{"id": "C129", "title": "What was read from a TOML file can always be written back: backups, copies and restoring", "statement": "Let a program read a TOML settings file through its file layer. The value read is a map TOML can hold, contains no None anywhere and only one kind of integer. The format therefore never refuses to write it back, to the same or another file and at any later time: only the operating system can (the file cannot be opened, the disk is full). Once written (and not nested beyond the parser's limit) it is read back exactly: every path shows the same, down to the kind of every number; and this remains so after any number of copies of copies. If the settings file of a configuration was edited, replaced, deleted, damaged in between, writing the backup through the layer makes the configuration build exactly what it built at the time of the backup, and typed settings of every type come out the same.", "quantifier": "all TOML texts a file may hold, all worlds (disks, environments) at the time of backup and of restoring, all changes of the file in between, all target files, all numbers of copies, all configurations of the crate's own layers with the file at any position, all settings types", "why_tests_cant": "The property ranges over all documents, all histories of the file between backup and restoring and all chains of copies; a test takes one document and one history.", "anchors": ["src/config_layer/handlers/toml.rs: TomlFileHandler", "src/config_layer/layer_file.rs: read_value, write_value", "src/model/visitor.rs: ValueVisitor", "src/model/ser.rs: Serialize for Value", "src/config.rs: build_value"]}
{"id": "C130", "title": "Starts that are killed, or run out of disk space", "statement": "A program calls `create_config!` (names of layers pairwise distinct) and is killed at any point, or the disk fills up; it is started again any number of times. (1) A killed start has only created files, each the first candidate of a layer marked `init: true`; all hold the whole text of the defaults but at most one, which may hold any beginning of it; nothing that existed has changed. (2) The same holds of any history of killed and finished starts, with beginnings. (3) Every beginning can be left. (4) Once a start has been finished, no later start, killed or not, writes anything: what a kill left is never repaired. (5) On a machine where the program was never started, a finished start after any such history builds, with errors skipped, a value that shows the defaults everywhere except where a file holding only a beginning of their text reads as a map that says something; without skipping it builds the same value or reports what reading such a file gives. So if cut texts say nothing but what the defaults say, the defaults are shown. (6) Otherwise they need not be: a format that reads its own texts back faithfully can, after one kill, show for ever and without error a value that nobody wrote. (7) (5) holds as well of a format that leaves out `None`, as TOML does, or refuses the defaults: then only `None` entries of tables inside lists may be missing besides.", "quantifier": "all arguments, formats, machines, points of the kill and histories of killed and finished starts", "why_tests_cant": "A kill can come between any two bytes of any of the files, in any of the starts; a test fixes one.", "anchors": ["src/config_macro.rs: create_config!", "src/config_layer/handlers/toml.rs: TomlFileHandler::write", "src/config_layer/layer_file.rs: FileConfigLayer::read_value, FileConfigLayer::write_value", "src/config.rs: BakuninConfig::build_value"]}
{"id": "C131", "title": "Validated settings stay valid", "statement": "A type with a check (`#[serde(try_from = \"T\")]`, at any depth inside options, newtypes, lists, tuples, maps and structs) is read exactly if T is read and the conversion takes the result; a refusal is reported with the conversion's own message. Whatever the layers hold, everything of such a type in what is read was made by its conversion, so no instance the constructor would refuse comes out of a configuration. If the last layer that has a field's key holds a non-map the field refuses, the struct is not read: there is no fall back to lower layers or to the default; and an entry put on top of a readable configuration keeps it readable exactly if the field takes it, and changes only this field. An absent checked field without default is what its check makes of `None` if it is made from an `Option`, else an error. Reading never panics. With `#[serde(into)]` a value is written and read back, wherever it stands, exactly if the conversion takes what it is turned into.", "quantifier": "all types with checks at any depth, conversions, values, configurations, overrides", "why_tests_cant": "Types, conversions, nesting and layers are unbounded.", "anchors": ["src/model/de.rs: deserialize_option, deserialize_newtype_struct, deserialize_seq, deserialize_tuple, deserialize_map, deserialize_struct", "src/model/errors.rs: custom", "src/config.rs: build_value", "src/model/merge.rs: merge"]}
{"id": "C132", "title": "Every error has a culprit; what it reveals", "statement": "When reading settings as a program's type fails with an error, the error is the complaint of a part of the value that the type reaches: a scalar that does not convert, a value that is not a list, section or None where one is expected, a list shorter than a tuple, a map key that does not convert, a missing field, or a 128-bit integer; and reading fails exactly if such a part exists, so if one thing is wrong that is the error. In a built configuration the culprit is what the last layer that speaks about its path has there. The error of a scalar tells only the kind of the value, never the value. A section, list or scalar of the wrong shape is shown whole in the error, with every key and text in it; if all shapes are right nothing of the settings is shown. Keys that the type has no name for, and what is in them, are never shown and never change the outcome. No error tells which setting it is about. For structs with serde attributes (rename, alias, default, skip, deny_unknown_fields) the reasons are: an entry that is refused, a field given under two of its names, a key that is unknown where unknown ones are denied, and an absent field that must not be absent.", "quantifier": "all types of the modelled universe (nested and recursive structs included), all values and all orders of their maps, all layers, depths and sections", "why_tests_cant": "A test observes one error of one value; which parts of arbitrary nested settings can surface in an error, and that nothing else can, ranges over all types and values.", "anchors": ["src/model/de.rs: Deserializer for Value", "src/model/errors.rs: ModelError, deserialization", "src/model/into.rs: TryInto", "src/model/value.rs: Display for Value"]}
{"id": "C133", "title": "A number in a file and the same number in a variable mean the same — mostly", "statement": "Take a scalar (boolean, integer, float, string) and its Display text, as in a file and in an environment variable, and convert both. They give the same result, or are both refused, exactly in these cases: to String always; a string to anything; an integer to an integer type or to f64; a float to f64; a boolean to bool; the integer 53 to char; a float to an integer type if it is a whole number in range that is shown by its own digits, or if the type refuses it. So not: an integer to bool or (53 apart) char, a float to bool or char, a boolean to a number or char, a float with a fraction to an integer type (truncated, against refused), a float saturated by a 64-bit or 128-bit type. The text of a whole float up to 2^53 either way is read as that integer (minus zero: only by signed types); beyond, the text is that of some integer that is rounded to the same float, which need not be the same number (2^60). A typed field (also in Option or a newtype) follows its conversion: repeating in the environment what the configuration holds anyway changes nothing in the cases above.", "quantifier": "every scalar value, every one of the 14 targets; every float; every configuration with an environment layer on top, every key and field type read by such a conversion", "why_tests_cant": "it ranges over all integers, floats, strings and targets; where it fails (whole floats above 2^53, minus zero, 53) are isolated points", "anchors": ["src/model/into.rs: TryInto impls", "src/model/value.rs: Display", "src/model/de.rs: deserialize_bool, deserialize_i8 … deserialize_string", "src/config_layer/layer_env.rs: EnvironmentConfigLayer"]}
{"id": "C134", "title": "Which files on the search path decide, and what a file that takes over changes", "statement": "find_first (and find_last) answer the same in two states of the disk exactly if the same candidate is the first (last) that exists, or none exists in either: candidates beyond it may come and go, one before it takes over as soon as it exists. find_all and find_all_or_first hang on every candidate. create_config! hangs on nothing but the existence of the candidates up to the file each layer takes, and on the contents of the files taken: if these agree, the configuration, what later saves leave in those files, and the built value (or error) agree, whatever else is on the disk. It and all later saves write to no other place than those of the files taken, and make nothing go away. A file that appears earlier on the search path of one layer replaces that layer's file as a whole (nothing of the old file is read any more) and leaves every other layer as it was.", "quantifier": "every finder, every two states of the disk; every macro call (also with init, repeated names, directories that overlap), every sequence of later saves", "why_tests_cant": "it ranges over all pairs of disk states and all search paths, and says that infinitely many files have no influence", "anchors": ["src/file_finder/alg_find_first.rs: find_first", "src/file_finder/alg_find_last.rs: find_last", "src/file_finder/alg_find_all.rs: find_all", "src/file_finder/alg_find_all_or_first.rs: find_all_or_first", "src/config_macro.rs: create_config!", "src/config.rs: add_file_layer, build_value"]}
{"id": "C135", "title": "How deep a configuration may be nested", "statement": "On a stack that takes n nested calls: a value can be cloned, dropped, shown with Display and serialized exactly if it is nested less than n deep, with the usual result, and otherwise every one of these overflows the stack. Comparing two values is safe if either of them is nested less than n deep; equal values can be compared exactly if both are; whether comparing two deep unequal values overflows can hang on the order in which a map is walked. A document nested less than n deep is read (or refused) as usual and gives a value nested less than n deep; a deeper one is never read: it is refused early, or the stack overflows. So if every layer is nested less than n deep, a program builds its configuration and can clone, drop, show, serialize, compare and take apart what it has built. A loop of set on new maps makes a value of any depth on any stack; once it is too deep it cannot even be dropped.", "quantifier": "every value, document, configuration, world and stack size", "why_tests_cant": "exact bounds on recursion for values of every depth; a test sees one stack and one depth", "anchors": ["src/model/value.rs: Value (derived Clone, PartialEq, Drop), Display, set", "src/model/ser.rs: Serialize for Value", "src/model/visitor.rs: ValueVisitor", "src/config.rs: build_value"]}
{"id": "C136", "title": "What is asked of the operating system, and how often", "statement": "A search asks nothing but whether its candidates exist, in order, each once or twice: find_first those up to the first that exists, that one twice and, with allow_missing, the very first twice as well; find_last all, twice those that exist and, with allow_missing, those before the first that exists; find_all each once with allow_missing, else those that exist twice; find_all_or_first those that exist and the first missing one twice. Without folders or extensions nothing is asked. build_value asks, layer by layer in order of registration, nothing for a memory layer, the environment once for an environment layer with a prefix, for a file layer whether the file is there and, if so, its content once; all layers with skip_errors, else up to the first that cannot be read; it never writes and looks at no file that was not registered. create_config! asks, layer by layer, the base directories once per directory listed (the working directory too where it is listed), find_first with allow_missing, and for a layer with init once more whether the chosen file is there; it reads no file and no environment variable and asks for at most one write per layer marked init: true, to one of the candidates. When nothing is to be made the whole list is a function of the arguments and of which candidates exist.", "quantifier": "every finder, history of registrations, arguments of the macro and world", "why_tests_cant": "exact sequences of system requests for every search and configuration; a test sees results, not requests", "anchors": ["src/file_finder/alg_find_first.rs: find_first", "src/file_finder/alg_find_last.rs: find_last", "src/file_finder/alg_find_all.rs: find_all", "src/file_finder/alg_find_all_or_first.rs: find_all_or_first", "src/file_finder/find_result.rs: FindResult::new", "src/file_finder/os_directory.rs: to_path_buf, with_os_directory", "src/config_layer/layer_file.rs: read_value, write_value", "src/config_layer/layer_env.rs: read_value", "src/config.rs: build_value", "src/config_macro.rs: create_config!"]}
{"id": "C137", "title": "What enabling or disabling a file format changes", "statement": "Cargo gives a program the format features any of its crates asks for, so a program may find itself with more formats than it asked for, or (another binary of the same project) with fewer. A search for extensions given by the program does not depend on the features. add_file_layer keeps accepting what it accepted, as the same layer, and changes its answer only for paths with the extension of a gained format. As long as no file of a gained format stands in a directory of a layer (nor is another name of a file in use), create_config! makes the same configuration and the same files with more formats, provided the first format is the same or every layer has a file already (new files are made in the first format, TOML before JSON). A file of a gained format that stands before every other existing candidate takes over its layer. Without any format no file layer is added, silently: the program runs on defaults and environment. One run of a build without JSON, of a program whose init layer keeps its settings in JSON, makes a TOML file of the defaults that builds with both formats take from then on: the JSON settings are shadowed for good.", "quantifier": "every pair of feature sets, finder, arguments of the macro and world", "why_tests_cant": "a test is compiled with one set of features; the claim compares all of them over every disk", "anchors": ["src/file_finder/file_extension.rs: with_supported_extensions, From<&str>, match_path", "src/config.rs: add_file_layer", "src/config_macro.rs: create_config!", "Cargo.toml: features"]}
{"id": "C138", "title": "A configuration can be moved: neither paths nor layer names matter", "statement": "Where the files are and what the layers are called does not show in the settings. Two configurations registered in the same way but for the names of the layers (one name standing for one name) and the paths of the files (corresponding paths have the same extension and what is at corresponding places of the disk is the same) have the same layers in the same order and cannot be told apart: the built value or error, what reading any layer yields and what saving to any layer answers are the same, at first and after any saves. The same holds for create_config! with other directories, another file name and other layer names (default and environment are fixed): both programs make configurations that cannot be told apart, make corresponding missing files, fail in the same way on unreadable or unwritable ones, and their settings still correspond after any saves, so in every later run too.", "quantifier": "every renaming of layers, correspondence of places, history of registrations, arguments of the macro, pair of worlds that correspond, and sequence of saves and runs", "why_tests_cant": "the claim compares all pairs of locations and names, over all contents, faults and histories of saves and runs", "anchors": ["src/config.rs: push_layer, add_file_layer, get_layer, build_value", "src/config_macro.rs: create_config!", "src/config_layer/layer_file.rs: FileConfigLayer", "src/file_finder/finder.rs: find_first"]}
{"id": "C139", "title": "The worst a configuration can do: which settings types it can crash", "statement": "Reading a configuration as a type can panic only at an enum or a byte buffer. A type can be crashed (some value makes the read panic however large the stack) exactly if a read can come upon one: it is one, or one is in an Option, a newtype, a list, the values of a map with readable keys, a field of a struct, or a tuple after components that can be read. A program whose settings type is not of this kind never panics: create_config! gives a configuration and every later read, in any world, gives settings or an error (given the stack that the value's levels need). If it is of this kind, there is a map such that any file that spells it, as the only layer, makes the read panic. From the environment only fields of the settings struct itself that are an enum or byte buffer, perhaps optional or in a newtype, can be hit: with an environment layer on top, any variable on such a field makes the read panic whatever its text, unless another field is unreadable; with the environment alone, the settings can be made to panic exactly if there is such a field with a name a variable can land on. The types that some value can be read as at all are exactly those that need no 128-bit integer, enum, byte buffer or struct inside itself.", "quantifier": "every type built from the serde data model (recursive structs included), value, stack depth, program, world at the start and at each read, file text, set of environment variables", "why_tests_cant": "both halves range over all types and all configurations: a test shows one type crashed by one value, not that a type cannot be crashed by any", "anchors": ["src/model/de.rs: deserialize_enum, deserialize_bytes, deserialize_byte_buf, deserialize_struct, ValueMap, ValueSeq", "src/config.rs: build_value", "src/config_macro.rs: create_config!", "src/config_layer/layer_env.rs: EnvironmentConfigLayer"]}
{"id": "C140", "title": "Which settings can be said at all", "statement": "Data of a settings type is what some configuration value is read as exactly if it is built thus: booleans, floats of both widths, characters, strings and integers of up to 64 bits are all there; no 128-bit integer, enum or byte buffer is; a Value is, if its maps have unique keys; a Some is there if its inside is, and is not nothing (None, unit, a unit struct, a newtype around nothing); a newtype, list, tuple, map (distinct keys, of a key type of up to 64 bits) or struct if its parts are, save that an optional field may be None in any case. None, unit and unit structs themselves need a None in the value: without one, optional fields can still be None (left out), but no list element, tuple component, map value or unit. Whatever a program reads from memory layers, files and the environment is of this kind, and of the null-free kind if its format has no nulls (as TOML) and its memory layers no None. Conversely everything of this kind is read by a program from one memory layer, and everything of the null-free kind, for types without Value, from one TOML file if the settings are nested less deep than the format's limit.", "quantifier": "every well-formed type (recursive structs included), data, value, program of built-in layers, world and format", "why_tests_cant": "the impossibility ranges over all values and configurations, the possibility over all data of all types; a test shows one value giving one setting", "anchors": ["src/model/de.rs: deserialize_option, deserialize_unit, deserialize_unit_struct, deserialize_newtype_struct, deserialize_struct, ValueMap, ValueSeq", "src/model/into.rs: TryInto", "src/config.rs: build_value", "src/config_layer/layer_file.rs: FileConfigLayer"]}
{"id": "C141", "title": "Which settings the environment can bring about", "statement": "Take layers whose value does not depend on the environment, and put an environment layer with a prefix that is not blank on top. The settings that some environment of an operating system (names distinct, not empty, without = or NUL; values without NUL) brings about are exactly those in which every field is either as it is without the environment, or of a name a variable can land on (not beginning with the prefix, not ending in a blank, neither it nor the prefix with = or NUL) and of data a variable can give. A variable can give every boolean, integer of up to 64 bits, float of either width, character and text except NUL, these in newtypes, and Some of these; never None, a unit, a list, a map or a section. All fields can be set at once: variables for different fields do not disturb each other. With the environment alone, optional fields may be None and every other field needs its variable. No environment unsets an optional field, or changes a field of a type that is not read from text.", "quantifier": "every program, world, prefix, settings type, settings, and environment", "why_tests_cant": "that an environment exists for all settings of the kind, and none for any other, ranges over all settings and all environments", "anchors": ["src/config_layer/layer_env.rs: EnvironmentConfigLayer", "src/model/into.rs: TryInto", "src/model/de.rs: deserialize_struct, deserialize_option", "src/config.rs: build_value, add_environment_layer"]}
{"id": "C142", "title": "Which settings a layer on top can bring about", "statement": "Take layers and put one more on top. The settings (of a type whose sections have no Value, and maps only with text keys) that some value of the top layer brings about are exactly these: of a section that the layers below have too, every field is either what the layers below make it or is made something in the same way; a map that the layers below have too keeps its keys, every entry is either left or made something in the same way, and entries may be added; anything else that can be said at all (C140) can be made of any other field, lists being replaced as a whole. A None can be made of an optional field only by writing a None on top; a top layer that cannot write one - the environment, a TOML file - brings about exactly the same settings but for these. No layer of the crate on top, whatever is in the file or the environment, failing or skipped, brings about anything else. All that can be brought about without a None can be brought about by a TOML file on top. And a top layer without None never unsets an optional setting that is set below, in no section at any depth, for any type, and never removes an entry from a map (of two layers on top this does not hold: the first may put a text in the place of a section).", "quantifier": "every program, lower layers, world, settings type, settings, and content of the top layer", "why_tests_cant": "that a content of the layer exists for all settings of the kind, and none for any other, ranges over all settings and all contents", "anchors": ["src/model/merge.rs: merge", "src/config.rs: build_value", "src/model/de.rs: deserialize_struct, deserialize_option", "src/config_layer/layer_mem.rs: MemoryConfigLayer"]}
{"id": "C143", "title": "Optional flattened sections", "statement": "A settings struct may have a flattened section that is optional (`#[serde(flatten)] net: Option<Net>`), next to own fields, other flattened sections and a flattened map for the rest. It is read from a map exactly if its own fields can be read and no other entry contains a 128-bit integer (and the sections that are not optional, and the map, can be read): an optional section is Some exactly if all of it can be read from the entries left by the sections before it, and None otherwise - whatever is wrong with it, a typo, a number out of range, a list in the place of a text, is never reported. Sections with keys of their own do not disturb each other. An environment variable for a number or a boolean in an optional section makes the whole section None, whatever its text and whatever the layers below say. With a map for the rest beside it, the settings depend on the iteration order of the hash map exactly if an entry of the section is bad and the section has another entry: the entries after the bad one are left for the map.", "quantifier": "every struct, sections, map of entries, program, world and iteration order", "why_tests_cant": "ranges over all types, all contents of the map and all iteration orders; a test sees one random order", "anchors": ["src/model/de.rs: deserialize_map, deserialize_any, ValueMap", "src/config.rs: build_value, build", "src/config_layer/layer_env.rs: read_value"]}
{"id": "C144", "title": "A flattened enum depends on the order of the hash map when two layers name different variants", "statement": "Enums cannot be read as they are (C38), but a flattened one can (`#[serde(flatten)] backend: Backend`): it is the variant that the first entry of the map names, first in the iteration order of the hash map. Over all orders of the map, what can be got is exactly the own fields together with any variant that some entry names and whose content can be read from that entry. So the settings do not depend on the order exactly if only one entry names a variant. As layers are merged key by key, a layer cannot replace a variant chosen by a layer below: for every variant named in some layer, high or low, there is an order of the built map in which the settings have that one. An environment variable never chooses a variant without content, or a tuple or struct variant, whatever its text. With an internal tag it is otherwise: the highest layer that has the tag decides, and the order does not matter.", "quantifier": "every struct, enum, map, order of the map, program, world and text", "why_tests_cant": "the iteration order is random; a test sees one of them", "anchors": ["src/model/de.rs: deserialize_map, deserialize_any, ValueMap, deserialize_enum", "src/config.rs: build_value", "src/model/merge.rs: merge", "src/config_layer/layer_env.rs: read_value"]}
{"id": "C145", "title": "A catch-all field keeps the keys a program does not know", "statement": "A settings struct with a catch-all field (`#[serde(flatten)] other: HashMap<String, Value>` or `other: Value`) is read from a map exactly if its own fields can be read and no other key holds a 128-bit integer at any depth; the catch-all then holds exactly the other entries, unchanged. Whatever the program then does to its own fields: if they can be serialized, so can the struct, and in the result each own key has what was written (nothing, if the field was skipped) while every other key has exactly the value it had. Reading that again gives the fields as they were left and the same other entries. So when any number of programs, or versions of one, take turns with one value or one TOML file, each key has what the last of them that knows it wrote, and what it had at the start if none knows it (through TOML: up to the kind of integers, without None entries). When they do not take turns but load and save in any interleaving, the value is always that of the last saver: its own fields, and under every other key what was there when it last loaded, so that what others saved there since is undone. Without a catch-all nothing is left under a key the program does not know. And a trap: a program that reads the whole configuration and saves it writes out what other layers said under such keys, in particular environment variables, as text.", "quantifier": "every set of own fields, map, change of the own fields, order of the hash maps, history or interleaving of sessions, TOML-like format and world", "why_tests_cant": "every content under the unknown keys, every order of the hash map and every history of programs must be kept", "anchors": ["src/model/visitor.rs: visit_map, Deserialize for Value", "src/model/de.rs: deserialize_map, deserialize_any, ValueMap", "src/model/ser.rs: Serialize for Value, serialize_map, serialize_key, serialize_value", "src/config_layer/layer_file.rs: read_value, write_value"]}
{"id": "C146", "title": "Two layers on top can make every setting whatever can be said", "statement": "One layer on top cannot take anything out of a section that the layers below have (C142). Two can: with two memory layers on top, each setting at the top level of the settings struct can be left as the layers below have it or made anything that can be said at all, whatever the types (maps and Values included): the first puts a text in the place of what has to go, the second says what is to be there. For settings of which each can be said, the same two layers do it over whatever is below, so long as that can be read; so do two TOML files, if no None is needed. And however many of the crate's layers are put on top, whatever the files and the environment hold, no setting becomes anything else: what any number of layers can do, two can. In particular, without a None no number of layers unsets an optional setting at the top level that a layer below has set.", "quantifier": "every stack of layers below, settings type, settings, number of layers on top, content of files and environment, TOML-like format", "why_tests_cant": "it ranges over all settings types and data, all contents of the layers below, and any number of layers on top", "anchors": ["src/model/merge.rs: merge", "src/config.rs: build_value", "src/model/de.rs: deserialize_struct, deserialize_option", "src/config_layer/layer_mem.rs: MemoryConfigLayer", "src/config_layer/layer_file.rs: read_value"]}
{"id": "C147", "title": "When saved settings are what is read", "statement": "A program saves all its settings to its file (or gives them in the top layer in another way, with no None among its entries), and this is its last layer for them. It reads exactly these settings from all its layers together if and only if nothing of the layers below comes back: no optional setting that is unset in them has a value (other than None) below, and no map in them (with text keys) lacks an entry that the map below has - in sections and entries of maps, at any depth; in lists nothing comes back. This holds whatever the other layers say, now or in a later run, and also with further layers above the file, as long as these say nothing about anything the settings type looks at. And where something does come back, no other way of saving helps: no layer of the crate on top brings about these settings, no TOML file whatever is in it, no environment, no memory layer without a None. (For types whose maps have text keys, Value included; for what is saved to a file, types without Value.)", "quantifier": "every settings type, settings, TOML-like format, content of the layers below, world, and nesting depth", "why_tests_cant": "it ranges over all settings types, all data of the type, everything the layers below may hold and everything a layer on top may hold", "anchors": ["src/model/merge.rs: merge", "src/config.rs: build_value", "src/model/ser.rs: ValueSerializer", "src/model/de.rs: deserialize_option, deserialize_map, deserialize_struct", "src/config_layer/layer_file.rs: write_value, read_value"]}
{"id": "C148", "title": "Unset settings stay unset where None can be written; removed map entries never stay removed", "statement": "Whatever the layer on top is, the program reads from all its layers together exactly the settings that this layer alone gives, if and only if nothing of the layers below shows through: the layer on top leaves out no optional setting that has a value below (a setting it says is None is not left out), and no map in the settings (with text keys) lacks an entry that the map below has - at any depth of sections and maps. So a program that saves all its settings to a file whose format gives back what was saved, None included (JSON, as opposed to TOML, C147), reads them back over any other layers, and under any that say nothing about what the settings type looks at, exactly if no map lacks an entry that it has below: what the user unset stays unset, what he removed from a map may come back. And where an entry would come back, no single layer on top helps, of whatever kind or format, with or without None. (For types whose maps have text keys, Value included; for what is saved to a file, types without Value.)", "quantifier": "every settings type, settings, format, content of the layers below and of the layer on top, world, and nesting depth", "why_tests_cant": "it ranges over all settings types, all data of the type, everything the layers below may hold and everything a layer on top may hold", "anchors": ["src/model/merge.rs: merge", "src/config.rs: build_value", "src/model/ser.rs: serialize_none, serialize_struct, serialize_map", "src/model/de.rs: deserialize_option, deserialize_map, deserialize_struct", "src/model/visitor.rs: visit_none, visit_unit", "src/config_layer/layer_file.rs: write_value, read_value", "src/config_layer/handlers/json.rs: JsonFileHandler"]}
