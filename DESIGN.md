# DESIGN — formal model of BakuninConfig in Lean 4

The Rust crate in `/repo` is modelled, function by function, as Lean definitions under `lean/Verif/Model/` (computable
functions; step relations where the order of things is not the crate's to choose). Small specifications that do not use
the model's helpers live in `lean/Verif/Spec/`. Property theorems live in `lean/Verif/Props/`, named `Cnn_…` after
`properties.jsonl`; supporting lemmas in `lean/Verif/Lemmas/`. `MANIFEST.json` lists the theorems of each property
(generated by `tools/manifest.py`); `tools/citations.py` checks that every definition of the model cites lines of `/repo`
that exist. `seeded/LOG.jsonl` records the wrong programs the theorems were tested against.

## Modelling decisions

* **Strings**: Rust `String`/`&str` = Lean `String` (both are sequences of Unicode scalar values).
* **Integers**: `i8…u128` = subtype of `Int` by the exact range of the type. No wrap-around is modelled
  because no wrapping operation occurs, except the `u16` counter of the finder, which panics or wraps by build profile.
* **f64/f32**: a canonical (sign, mantissa, exponent) representation with one NaN (payloads and NaN signs are not modelled).
  Rounding, `as` casts, printing and parsing are defined on it and proved correct against rational arithmetic.
* **HashMap**: an association list; the list order *is* the (arbitrary) iteration order. Theorems
  quantify over all lists, i.e. over all iteration orders. Values are compared up to order by
  `Spec.view` (what is visible at every path). `Spec.UniqueKeys` says that every map has unique keys.
* **&mut** methods return the new value. `Result` is data; a panic is the explicit outcome `Outcome.panic`.
* **serde**: the calls a `Serialize` makes are the type `Data`; derived/std `Deserialize` impls are modelled by
  interpreting a type description `Ty`; hand-written implementations are arbitrary call sequences (`Model/Protocol.lean`).
  Recursive Rust types are `Ty.ref` into an environment of structs; the interpreter takes a stack-depth budget `k`,
  and C38 shows that some budget always suffices (for the types where it should), and that a larger one never changes the result (C38_stack).
* **Filesystem, environment, directories**: explicit `World` state; `locate` (path resolution incl. symlinks and the
  working directory) is an arbitrary function that stays fixed during a run. Paths are Unix paths.
* **Text formats** (toml, json): `Codec`, a pair of functions (`parse`, `print`) with **no** assumed properties. Theorems that
  need one state it as a hypothesis about the one text involved ("the text printed for this value parses to a document
  presenting this value"). The theorems hold for any codec, so for the user's own `FileHandler`s of the same shape.
  C84, C85, C102, C103 and C104 assume of the codec what the documentation of TOML and of the toml crate says (`Spec.TomlLike`, `Spec.Keeps`, `Spec.NoNulls`); a codec that satisfies it is constructed.
* **Concurrency**: three levels. `Moments` (every look at the world at its own moment) for readers and searches;
  `Model/Crash.lean` (steps of one `fs::write`, stopped anywhere); `Model/Writers.lean` (several writers and a reader of one
  file, interleaved piece by piece).
* **Cargo features and profile**: `Build` (toml, json, overflow checks) is a parameter of every theorem it matters to.

## Trusted base

1. **Lean 4.33's kernel** and the statement elaborator. No `native_decide`, no `bv_decide`, no axioms of our own, nothing left open.
2. **Axioms**: only Lean's three standard ones, `propext`, `Classical.choice`, `Quot.sound`. The table at the end lists them
   for every property theorem (produced with `Lean.collectAxioms`).
3. **The reading of the code**: definitions of `Model/` were written from the cited lines and re-read against them. The crate was
   neither compiled nor run. The unit tests, doc tests and examples of `/repo` are transcribed and evaluated on the
   model in `lean/Verif/Fidelity.lean` (they are tests of the model, not counted as proofs).
4. **Things outside `/repo`**, modelled from their documentation: Rust std (`HashMap`, `str::trim`, `trim_start_matches`,
   `parse`, `Display`, `char::from_u32`, float casts, `Path::{join, extension, with_extension, exists}`, `fs::{read_to_string, write}`,
   `env::vars_os`), serde's derive and std impls, `directories::BaseDirs`.

### What is modelled

| code | model | properties |
|---|---|---|
| `model/value.rs`, `new.rs`, `iter.rs` | `Model/Value.lean`, `Nesting.lean` (drop, `Display`, `==` on a bounded stack) | C15–C22, C64, C135 |
| `model/merge.rs` | `Model/Merge.lean`, `Cost.lean` (its steps and its stack) | C01–C06, C111, C112, C126 |
| `model/from.rs`, `into.rs`, `Display` | `Model/Convert.lean`, `Text.lean`, `Num.lean`, `Float*.lean` | C23–C34, C81, C83, C133 |
| `model/ser.rs`, `de.rs` | `Model/Serde.lean`, `Protocol.lean`, `Attrs.lean`, `Buffer.lean`, `Adjacent.lean`, `Visitor.lean`, `StdTypes.lean`, `Checked.lean`, `FlatOption.lean`, `CatchAll.lean` | C35–C44, C68, C69, C82, C90–C93, C97–C99, C116, C131, C132, C139, C140, C143, C144, C145 |
| `model/visitor.rs` | `Model/Serde.lean` (from a Value), `Doc.lean` (from any format), `Nesting.lean` (on a bounded stack) | C35, C65, C66, C135 |
| `model/errors.rs`, `bak_error.rs`, `*/error.rs` | `Model/Prelude.lean`, `Errors.lean` | C79; throughout (which error, with which data) |
| `file_finder/*` | `Model/Path.lean`, `Finder.lean`, `BaseDirs.lean` (Linux, macOS), `WinPath.lean` (Windows), `Race.lean`, `Asks.lean` (what is asked of the OS) | C45–C53, C70, C106, C128, C136 |
| `config_layer/*` | `Model/World.lean`, `Layer.lean`, `Crash.lean`, `Writers.lean`, `Inspect.lean`, `Asks.lean` | C54–C59, C72, C73, C84, C89, C136 |
| `config.rs` | `Model/Config.lean`, `Race.lean`, `Stateful.lean`, `Asks.lean` | C07–C14, C71, C88, C89, C100, C111–C113, C136, C137, C138 |
| `config_macro.rs` | `Model/Config.lean`, `MacroRace.lean`, `MacroCrash.lean`, `Starts.lean`, `Asks.lean` | C60–C63, C67, C80, C85, C101, C130, C136, C137, C138 |
| `README.MD` (the program beside the macro) | `Model/Readme.lean` | C78 |
| `examples/create_config.rs` | `Model/Examples.lean` | C95 |
| every `log::` call | `Model/Log.lean` | C107–C110 |
| all of it together | — (`Spec/Program.lean`, `Spec/Writing.lean` for whole programs) | C74–C77, C86, C87, C94–C96, C102–C105, C114, C115, C117–C125, C127, C129, C134, C139–C142, C146–C148 |

### What is not modelled

* Windows paths outside C128 (there, verbatim and device paths `\\?\…`, `\\.\…` are taken for network paths with a server named `?` or `.`); NaN payloads; non-ASCII case folding except the two characters whose lowercase is ASCII-relevant (U+212A, U+0130); `with_extension`
  on names `..x` with no further dot, where versions of std differ (`..` or `..toml`; the model has the latter).
* `Debug` of layers; of `Debug` of the config the listed pairs are modelled, not the punctuation. How `Debug` spells the arguments of log records is a parameter, and records of user-written layers and handlers are not modelled. Error texts are those of the crate's own `Display` impls; std's texts of
  I/O errors and user errors are parameters, and serde's `invalid_length` message is abbreviated.
* serde attributes other than `rename`, `alias`, `default`, `skip*`, `deny_unknown_fields` (C90) and `flatten` (of structs and maps; of optional structs and enums C143, C144), `untagged`, `tag` (C91), `tag` with `content` (C97), `try_from`, `from`, `into`, `transparent` (C131); `Deserialize` for types not in `Ty` other than those of C93 and hand-written ones, which C69 and C92 cover. `IgnoredAny` is modelled.
* `ConfigLayerError::IOError` and `FileFinderError::ReadDirectoryError` are never constructed by the crate and omitted.
* User-written `ConfigLayer`s have internal state and effects in C88 only; elsewhere they are functions of the world. The filesystem model has no removal or
  renaming of files by the crate (it never does that); in C72/C73 nobody else does it either; in C70/C71 others may do anything.
* Memory exhaustion (so also the capacity overflow of `with_array_capacity`), stack overflow (other than the budget `k` above and, for `merge`, clone, drop, `Display`, `==`, serialization and the visitor, C126 and C135, where every nested call counts one and what the formats' printers and parsers need is not counted), `usize` overflow of an iterator index.

## Findings about the code

Facts the proofs turned up; each is a theorem or an `example` in `Props/`.

* `merge` is not associative (C03_not_associative); an explicit `None` in an overlay overrides.
* Float → `i64/i128/u64/u128` saturates silently (u128 even at `i128::MAX`), smaller integers report an error (C27); NaN → 0.
* Because std stops reading an exponent at 65536, a numeral of a million characters for 1 converts to 0 (C81_capped).
* The error of `ULongInteger → char` names its source `i64`, and integer → char errors name the target `u8` (C30).
* `Value::serialize`/`deserialize` fail on 128-bit integers although `From`/`TryInto` handle them (C36, C43); enums and byte
  arrays serialize but deserializing them panics (C38_enum_bytes_panic); `Some(None)` and `Some(())` are lost (C37_nested_option_lost).
* `HashMap<i32, _>` from keys `"1"` and `"+1"` depends on iteration order (C44_clash_is_real).
* The cargo features are not additive for a running program: a file of a format that some other crate's dependency switches on takes over its layer (C137_takeover), and one run of
  a binary built without JSON makes a TOML file that shadows the user's JSON settings in all later builds (C137_shadow). With no format at all, `create_config!` drops every file layer silently (C137_none).
* Every search asks the OS twice about each file it reports (C136): once itself, once in `FindResult::new`; `create_config!` asks a third time for a layer with `init`, and calls
  `BaseDirs::new` once for every directory listed, even for a fixed `Path`.
* The searches take a directory named like the file for the file (C51_exists), and reading it as a layer then fails (C56_disk).
* Environment layer: the prefix is stripped repeatedly, so different variables can land on one key (C55_collision_witness); a variable
  named exactly like the prefix gives the key `""`.
* `FindResult.extension` is always `Custom`, because `From<&str>` matches `".toml"` with the dot (C51); hence its `match_path` is always false.
* `with_extension` replaces the last dotted segment of the name: `my.config` is looked for as `my.toml` (C50_dotted); names such as
  `..` have no file name and the layer is silently skipped (C50_no_file_name).
* `find_all` with 65536 hits panics in debug and wraps its index in release (C47_index_overflow).
* `OSDirectory::Path` and `WorkingDirectory` are dropped when the user's home directory cannot be determined (C52_no_base_dirs).
* As the `toml` crate (not in /repo) presents it, a date-time in a TOML file is read as a table with the one entry `$__toml_private_datetime`; written back (C129) it stays that table in the value, and so it is a table, not a
  date-time, in the file from then on.
* On Windows `AppConfig(app)` is `{RoamingAppData}\app`, not `{RoamingAppData}\app\config` as its documentation says (C128_dirs); with a folder `\\server` the file name is taken for
  the share and gets no extension (example after C128_extension).
* `can_write()` is false for file layers although writing works (C58_can_write_lies).
* `create_config!` with a repeated layer name and `init: true` overwrites the existing file of the first layer (C61_repeated_name_overwrites); a
  layer named `default` or `environment` collides with the macro's own.
* `fs::write` truncates first: a crash leaves any prefix of the new text (C59), concurrent readers see torn text (C72_mixture), concurrent
  writers can mix texts or leave zero bytes (C73_mixture, C73_hole); init can destroy a file created between check and write (C63_lost);
  first runs at once leave a good file only if the printed text does not depend on the order of the `HashMap` (C101_mixture).
* `find_first(false)` may return `exists = false`, and `build_value(false)` can fail only because of a race (C70_flag_may_contradict, C71_only_under_race).
* `next_key` of the map accessor does not consume, so a key-only visitor never ends (C69_keys_only); `next_value` past the end and
  `serialize_value` without a key panic (C68, C69).
* Integer kind (i64/u64/…) is not preserved by text formats (C66_kind_is_lost), unobservably for typed readers.
* An integer (or text) read as `f32` is rounded twice, through `f64`: 2^60 + 2^36 + 1 becomes 2^60 although 2^60 + 2^37 is nearer (C82_rounded_twice).
* TOML has no null: a map entry `None` is dropped when a layer is saved, so unlike in a memory layer it cannot hide a lower layer
  (C84_none_does_not_hide, C84_none_in_memory_hides); `HashMap<_, Option<_>>` loses entries (C84_map_of_options); a `None` in a list, `LongInteger`,
  `ULongInteger` and `UInteger` above `i64::MAX` make the whole save fail (C84_write). (Read, not modelled: a TOML datetime is read as a map with the toml
  crate's private key, because the visitor has no case for it; values nested deeper than the TOML parser's limit are saved but cannot be read.)
* With `create_config!` and TOML a default `None` inside a table of a list disappears as soon as the file has been created: arrays are replaced as a
  whole, so the file's copy, which lacks the entry, hides the default (C85_lost); every other default comes back (C85_every_run).
* A field that one layer spells with its name and another with its alias makes the struct unreadable (C90_split_alias); under `deny_unknown_fields` any extra
  prefixed environment variable does (C90_deny).
* Saving the built value into a file layer can change what is built: where the file's old content hid a table of a lower layer behind a non-map and a later
  layer has a table, the lower layer's entries come back (C87_save_built and the example after it). Nothing is ever lost, and a second save changes nothing.
* With `init: true` the defaults of the first version that ran are frozen into the settings file: a default changed in a later version never takes
  effect for an existing user, only new keys do (C105_first_defaults_stick).
* Under `#[serde(flatten)]`, `untagged` and `tag` nothing is converted: a number or boolean given as text (always so from the environment) cannot be read
  (C91_text, C91_env), and a 128-bit integer in any entry, even one nobody asks for, makes the reading fail (C91_buffer, C91_flatten). Plain enums panic
  when read directly (`unimplemented!`), but work inside such types (C91_enum).
* An adjacently tagged enum can be written but never read: with its tag present the program panics, and with a 128-bit integer in its content it is up to the
  order of the `HashMap` whether there is an error or a panic (C97_direct, C97_order, C97_config).
* An `untagged` enum loses what it held if an earlier variant fits what was written: `enum { Text(String), Letter(char) }` saved as `Letter('x')` comes back as `Text("x")`
  (serde's rule, C98_untagged_lost). Two flattened maps each see the other's entries (Props/Kept.lean, last example).
* An optional flattened section (`#[serde(flatten)] net: Option<Net>`) swallows every error: a number out of range or a missing key silently unsets the whole section (C143_flatten,
  C143_swallows), and so does any environment variable for a number or boolean in it, whatever its text (C143_env). With a flattened map beside it, which of its entries leak into that map
  depends on the iteration order of the `HashMap` (C143_order), and so may whether the settings load at all (Props/FlatOption.lean, examples).
* A flattened enum (`#[serde(flatten)] backend: Backend`) is the first variant named by an entry in `HashMap` order; merging keeps the entries of all layers, so when a lower layer says
  `File = …` and a higher one `Db = …` it is random which of them the settings have, from run to run (C144_orders, C144_layers). With an internal tag the highest layer decides (C144_tag).
* An adjacently tagged enum in a borrowed buffer (below `untagged`, or in a flattened map) may be read or refused depending on the order of the `HashMap` (C99_adjacent_order).
* A field of type `&str` compiles but can never be read; `OsString`, `Result`, `Bound` and `CString` panic whatever the value (C93_never). A `Duration` cannot come
  from an environment variable, and one more entry in its table, from any layer, makes it unreadable (C93_text, C93_duration).
* Which of several defects a failing typed read reports, and even whether it is an error or a panic, depends on the hash order (C94_error_order).
* (read, not modelled) the `json` feature does not compile at this commit (`json5` is used but not a dependency), and
  `AppConfig("…")` in `create_config!` has a type mismatch; the model treats both as the code intends.
* There is no locking and no merging on save: of two programs that loaded the same file, the one that saves last silently undoes what the other saved
  (C103_last_saver); a save that was killed half-way can leave a file that reads without error but lacks settings (last example of Props/Faults.lean).
* The value of a prefixed environment variable that is not UTF-8 is written to the log (debug), and the name of every variable of the process that is not UTF-8, with the prefix or not (trace)
  (C108_leaks); parse errors are warned of with the parser's message, which may quote the file. No other configuration value is ever logged (C108_build, C108_write).
* `create_config!` drops an error of `add_file_layer` without any record, so a file name such as `..` silently gives no file layers (C109_swallowed); when no file can be looked for it warns of a "global config",
  whatever the layer is called, and its own warnings carry the target of the calling module, not of the crate (C109_texts). The macro says `log::warn!` without `$crate`, so the calling crate must itself depend on `log`.
* Saving typed settings drops every key of the file that the type does not know, at any depth, without a word (C118_resave, C118_forgotten): a tool or an older version that saves
  undoes what a newer version keeps in the same file. A key nobody knew that happens to have the name of a field added later stops the new version (C117_taken_name).
* One environment variable set to the empty text makes any settings with a field that is not a text unreadable, even an optional one or a whole section (C122_breaks, C122_program);
  nothing inside a section can be set from the environment (C122_text).
* Saving all settings freezes them against every later change of the layers below (C120_frozen), except that map entries removed before saving come back
  if a layer below has them (C120_table): there is no way to remove a default entry.
* A setting of the wrong shape (a list where a section is expected, or the reverse) is printed whole into the error message, secrets and all (C132_shown), while no error says which
  setting it is about (C132_anonymous). Scalars are safe: their errors show kinds only (C132_scalar, C132_quiet).
* A float setting and the same setting as text can be different integers: 2^60 is read as 1152921504606846976 from the float and as 1152921504606847000 from its text (C133).
  A number is a boolean when it comes from a file and an error when it comes from the environment; 7 is the bell character from a file and `7` from the environment.
* A first start that is killed (or finds the disk full) while it writes the defaults leaves a beginning of their text that no later start repairs (C130_settled, C130_every_beginning): at best every strict
  `build_value` fails from then on, at worst (a text cut in the middle of a value) a value nobody wrote is shown for ever without error (C130_wrong_for_ever).
* The file name is not checked: with the name `../x` or `/a/x` `create_config!` writes its defaults outside the given directories (C123_escapes); with a plain name it cannot (C123_start).
* A value nested deeper than the stack can be made (by a loop of `set`, each call constant) but neither dropped nor compared with itself: the process aborts when it goes out of scope (C135_made). A deep
  document overflows the stack in the visitor unless the format's parser has a limit of its own (C135_read).
* A settings type with an enum or a byte buffer anywhere a read can reach — an optional field included — lets the author of a config file crash the program (C139_type, C139_file), and if the field is at the
  top level, one environment variable does, whatever its text (C139_env). Types without them cannot be crashed by any configuration (C139_start).
* Some settings have no configuration (C140_say): no configuration gives a `Some(None)`, `Some(())` or 128-bit integer, and no TOML file a unit, or a `None` in a list or as a map's value (C140_gaps) — although
  TOML files can leave an optional field out.
* The environment can give any scalar setting at the top level any value of its type, but cannot unset an optional setting that a lower layer gives, nor change anything in a list, map or section (C141_reach,
  C141_never).
* A user's TOML file can bring about any settings the type can say, whatever the layers below it say, except that it cannot unset an optional setting that the defaults set — there is no way to write
  the missing value — at any depth of sections, nor take an entry out of a map (C142_only, C142_file, C142_keeps); with a format that has nulls it can unset settings (C142_top), but still takes nothing out of a map. Two such files can, in
  sections: the first puts a text in the place of the section, the second a new section (C146_files). But no number of them unsets an optional setting at the top level (C146_only).
* A settings dialog that lets the user unset an optional setting, or remove an entry of a map, and saves the result does not do so if a layer below has it: the next run reads it again (C147_saved), and nothing else
  the program could save to its TOML file would help (C147_else). All other settings it saves are what it reads.
  If the program saves as JSON instead, what was unset stays unset, as `null` replaces what is below, but entries removed from a map still come back (C148_saved); no layer on top, of whatever kind, takes
  an entry out of a map that the layers below have (C148_else).
* A program that saves its settings drops every key its type does not know (C145_lost); one with a catch-all field keeps them, whatever they hold (C145_save, C145_files) — unless a 128-bit integer is
  among them, which keeps it from reading anything (C145_read). If it reads the whole configuration rather than the layer, it saves environment variables it does not know, too (C145_env).

## Plan per property

* **C01** Merge is a deep, right-biased overlay, path by path — Model `Value.merge`; spec `Spec.Silent`/`Spec.view` (path observation). Induction over the overlay.
* **C02** Merge identity, idempotence and absorption — Corollaries of C01 (view extensionality).
* **C03** When the grouping of merges is irrelevant — Both directions from C01; the 'only if' constructs the distinguishing `a`.
* **C04** Merge does not depend on HashMap iteration order — Corollary of C01: the spec mentions only `view`, which is order-free.
* **C05** Merge with a non-map is a no-op — Case analysis on the two kinds.
* **C06** Merge never loses a key and never invents one — C01 at `q ++ [key k]`, plus counting of distinct keys for `len`.
* **C07** build_value shows, at each path, the last layer that speaks about it — Fold of C01 over the registered layers.
* **C08** build_value always yields a map with unique keys — Invariant `isMap` and `Spec.UniqueKeys` of the fold.
* **C09** skip_on_error = true never fails and equals dropping the failing layers — Induction over the layer list.
* **C10** skip_on_error = false fails with the first failing layer, else agrees with true — Induction over the layer list.
* **C11** Layer registry: first registration wins, order is registration order — Refinement of the two fields (`layers_names`, `layers`) to 'first registration wins'; induction over histories.
* **C12** add_file_layer accepts exactly the enabled extensions and is atomic on error — Decision logic + byte-level model of `Path::extension`.
* **C13** build_value depends only on its own inputs — Each built-in read depends on a slice of the world; lift over the fold.
* **C14** A layer added last overrides, and only where it speaks — Fold lemma on append + C01.
* **C15** Map values behave like a finite map under any history of set — Refinement to a function `String → Option Value`; induction over histories.
* **C16** Array values behave like a list under any history of push — Refinement to `List Value`; induction over histories.
* **C17** iter() yields exactly the elements, in order, then ends for good — State machine `ValueIter.next`; induction over the number of calls.
* **C18** Wrong-kind accesses are harmless — Case analysis; induction over the access chain.
* **C19** value_map! and value_vec! build what they spell and never panic — The macros are folds; corollary of C15/C16.
* **C20** len counts what is there — Length of a duplicate-free association list = number of keys answered.
* **C21** == on values ignores map order and is an equivalence except for NaN — Model of the derived recursive equality; induction over values.
* **C22** No API call can create a map with a duplicate key — Invariant `Spec.UniqueKeys`, preserved by every modelled constructor/operation; `Spec.Obtained` closes it over every history of API calls.
* **C23** Integer conversions are exact or an error, never wrap — `to_number!` modelled arm by arm; exhaustive case analysis over (variant, target).
* **C24** From then TryInto returns the original — From/TryInto composition, case analysis.
* **C25** Strings convert to integers exactly when they spell one in range — Rust's integer `from_str` modelled as a checked digit loop; independent grammar spec `Spec.SpellsInt`.
* **C26** Integer to text and back is lossless — Decimal printer modelled; print/parse round trip by strong induction.
* **C27** Float to integer truncates; only small types report overflow — f64 modelled as canonical (sign, mantissa, exponent); `as` casts modelled as clamp∘truncate.
* **C28** Integer to float is exact up to 2^53 and correctly rounded beyond — Correct rounding function on fractions; nearest/ties-to-even spec proved.
* **C29** Boolean conversion rules — Arm-by-arm model; ASCII-case spec.
* **C30** Char conversion rules — Arm-by-arm model.
* **C31** None, arrays and maps never convert to a scalar, and say so — Case analysis over all 14 models.
* **C32** into_<type>_or falls back exactly on failure — Model of the generated methods.
* **C33** try_into_string is Display, restricted to scalars — Model of Display; comparison with the String conversion.
* **C34** Float to text and back is lossless — Rust's shortest-digits printer and the decimal parser are modelled (`Model/Text.lean`: exact decimal expansion, correctly rounded parse), and the round trip is proved from the two; not a parameter.
* **C35** Deserializing a Value into a Value is the identity — Model of Deserializer for Value + ValueVisitor; mutual induction.
* **C36** Serializing a Value into a Value is the identity except on 128-bit integers — Model of Serialize for Value + ValueSerializer; mutual induction.
* **C37** Typed round trip through a Value — Universe `Ty` of types and `Data` of serde data; typing judgement; mutual induction.
* **C38** Exactly which deserializations panic — `panic` is an explicit outcome; mutual induction on the type.
* **C39** Struct deserialization: extra keys ignored, missing options are None, missing required fields fail — Model of serde-derived visit_map loop over the entries.
* **C40** Sequence lengths in deserialization — Model of serde's Vec/tuple visitors over ValueSeq.
* **C41** Serialization never panics and has a fixed layout — Mutual induction over `Data`; layout stated constructor by constructor.
* **C42** Map keys of any scalar type survive as text — Injectivity of key text + C15-like lookup lemma.
* **C43** 128-bit integers cross serde only as raw Values — Case analysis.
* **C44** Deserialization success and result do not depend on map iteration order — Order-independence of the visit_map loop; mutual induction.
* **C45** find_first returns the first existing candidate — Nested loops modelled with early return; equivalence with `List.find?` over the candidate list.
* **C46** find_last returns the last existing candidate — Same, last match.
* **C47** find_all returns exactly the matching candidates, in order, numbered from 0 — Same, filter; u16 index modelled with explicit overflow outcome.
* **C48** find_all_or_first is find_all with a fallback to the first candidate — Same with fallback.
* **C49** Finder validation — Decision logic.
* **C50** Candidate paths are <folder>/<name>.<ext>, but a dotted name loses its last segment — Char-level model of Unix `Path::join`, `file_name`, `extension`, `with_extension`.
* **C51** FindResult fields are truthful, except the extension tag — Fields of `FindResult::new`; membership in the candidate list.
* **C52** OS directory resolution — Fold over `with_os_directory` calls.
* **C53** The four searches agree with each other — From C45-C48.
* **C54** Environment layer: exactly the prefixed variables, with the prefix removed — Model of the vars_os loop incl. trim, starts_with, trim_start_matches; induction over the variable list.
* **C55** Environment layer: blank prefix is an error, junk is ignored, collisions are possible — Same.
* **C56** File layer: missing file is an empty map, unreadable or malformed file is an error — Filesystem as explicit world state; text formats are parameters.
* **C57** Writing a layer and reading it back — Same; write returns the new world.
* **C58** Memory and environment layers are read-only; can_write is not reliable — Decision logic.
* **C59** Crash during write_value — `fs::write` as a list of atomic steps; all prefixes.
* **C60** create_config! layer order and precedence — Macro expansion modelled as a fold over layer specs threading the world.
* **C61** create_config! init never overwrites an existing file, provided layer names are distinct — Invariant over the fold; counterexample for repeated names.
* **C62** Freshly initialised configuration reads back the defaults — Combination of C60, C57 and C07.
* **C63** init is not safe against concurrent creation — Step semantics of the init (check, then the steps of `fs::write`) with external writes between; the unsafe schedule is exhibited.
* **C64** Kinds of a value are decidable, disjoint and stable — The `is_*` methods against `Spec.head`; `new_*`, `set`, `push`, `merge` keep the kind.
* **C65** A document of any format is read faithfully as a Value — `ValueVisitor` driven by any tree of `visit_*` calls (`Doc`); `Spec.Accepted`/`Spec.At`/`Spec.Shows` say in path terms what must come out. Mutual induction over `Doc`.
* **C66** A round trip through a text format is unobservable to typed readers — relation `Spec.Alike` (same paths, same content, integers up to their kind) is a congruence for get/at/conversions/deserialize/merge/build_value; `Spec.Presents` is the only assumption about the format. Types with a `Value` inside: `Spec.DAlike` (data with the same paths showing the same up to the kind of integers); decoding the canonical representative (`norm`) gives data with the same canonical representative (`dn`), by induction on the type, then C44.
* **C67** init: true really initialises its layer — the macro fold of C60/C61, in the positive direction.
* **C68** Hand-written Serialize implementations get exactly what they stored — the compound serializers as state machines under every call sequence; spec `Writes`/`LastWritten`/`Unservable` over the history.
* **C69** Hand-written visitors see a map or array exactly as it is — `MapAccess`/`SeqAccess` as state machines under every call sequence.
* **C70** Searches among other processes answer by what they saw — every look at the world happens at its own moment (`Moments`); loops re-modelled with a clock; invariants over the clock.
* **C71** build_value among other processes works on one reading of each layer — same `Moments`; refinement to a config of frozen memory layers.
* **C72** A reader during a write gets old bytes continued by new bytes — `read(2)` loop against `write(2)` loop, arbitrary pieces and interleaving.
* **C73** Concurrent writers of one file — any number of writers, own positions, arbitrary interleaving; invariant over the history of the file.
* **C74** Typed defaults survive every run — C60/C62/C66 chained over `nthRun` (induction on the number of runs) and composed with the typed round trip of C37.
* **C75** A section is layered on its own — fold of `merge` seen under one key (`entriesAt`), independent of C07's path formulation; then `deserialize_struct` field by field.
* **C76** An environment variable decides its key — C54 + C75 + the conversions of text (C25, C29) through the deserializer.
* **C77** Saving through a file layer, then building — C57/C66 for the written layer, frame for the others, C07 for the result.
* **C78** README program = macro — the program modelled statement by statement, the macro call as arguments of `createConfig`; equality of the two runs by the layer-by-layer normal form of C60.
* **C79** Errors can be told apart — the `PartialEq` and `Display` impls; injectivity of the texts by their fixed prefixes and separators.
* **C80** create_config! among other processes — every look and every write of the macro meets its own world (`LayerMoments`); the run is described layer by layer (induction), `Alone` picks the undisturbed run.
* **C81** Which texts are floats — the grammar as relations on characters and rationals (`Spec/FloatText.lean`), proved equivalent to the parser; correct rounding and the overflow threshold over the rationals.
* **C82** Typed reading of a scalar — unfolding of the deserializer at scalar types against the conversions of C23–C31; the f32 rounding by the general rounding theorem; a witness for double rounding.
* **C83** The text of a scalar — convexity of the set of numbers that round to a float (monotone rounding), the two n-digit neighbours of a number, and the gap between neighbouring floats against 17 digits; the digits by induction on the printer.
* **C84** the value without its `None` entries (`prune`) as the canonical result, its view by induction on the path; deserialization does not notice by induction on the type; then C57, C66, C77 and C07. A TOML-like codec is constructed (injective numbering of values) so that the hypothesis is met.
* **C85** the run-by-run invariant of C74 generalised to any relation between the defaults and what a format reads back; the relation for TOML is `view` equality up to `None` entries; merging it over the defaults restores entries outside lists (induction on the path); typed part by C84's deserialization lemma; C85_lost from C07.
* **C86** C77 and C07 at each path; silence and views agree along an unchanged path; `set` by the finite-map lemmas.
* **C87** by C07 at the path: if a later layer speaks, nothing changed; otherwise the file speaks now, and if it is silent, the shortest non-map prefix in the old content and the last speaker there give the exceptional pattern.
* **C88** Layers as state transformers over an arbitrary state type (`Model/Stateful.lean`); the loop of build_value compared by induction with a specification that simply calls the layers one by one, and with an instrumented layer that records every call.
* **C89** The concrete layer types of `Model/Inspect.lean`; the exactness by probing a layer with a variable named like its prefix (C54); Debug by the list invariant of C88.
* **C90** The code serde's derive generates for these attributes, over arbitrary field decoders (`Model/Attrs.lean`), an exact characterisation by induction over the entries, and its composition with the layering of C75.
* **C91** serde's buffer and the readers over it (`Model/Buffer.lean`, each type a pair of decoders: from a value and from the buffer), exact characterisations in `Spec/Buffer.lean` by induction over the entries, variants and parts, and composition with C75 for configurations.
* **C92** Each `deserialize_*` method as a function of an arbitrary visitor (`Model/Visitor.lean`), a relation saying which call is made (`Spec/Visitor.lean`), case analysis; the decoders of `Model/Serde.lean` and the readers of `Model/Buffer.lean` are proved to be these methods with the visitors of the types.
* **C93** serde's implementations for these types on top of the visitor model of C92 and the struct visitor of C90 (`Model/StdTypes.lean`), exact characterisations, composed with C75 for configurations.
* **C94** A program cannot observe the order of a HashMap — `Spec.Program` (next call as a function of everything told so far), `exec` over the model functions, `Run` with `ReorderedAll` before every call. Every call respects `Reordered` (one lemma per call, from C04, C17, C21, C36, C44); bisimulation by induction over the run.
* **C95** from C07 (last speaker) and the shape of a path that is spoken about but empty; the macro's registration order (C60) puts the defaults first; struct reading by induction over the map; the example program modelled as written.
* **C96** Spec/Writing.lean adds to the programs of C94 a world that changes: two worlds are alike if they differ only in bytes of files that all file layers read alike. Proved that every call preserves alikeness (searches look at existence only; writing: the format is blind to the order; the macro: induction over its layers), then as for C94 by induction over the two runs. Witness: a TOML-like format proved blind, and a program with different file bytes in its two runs.
* **C97** Model/Adjacent.lean models the derived visitor (states: nothing seen, tag seen, content stored, done) for a `Value`, where the tag's value panics, and for serde's buffer. Proved by induction over the entries with the state generalised, then the buffered reading is characterised by what is under the two keys; writing uses C36/C42's lemmas on `ser`, plus: `ser` never yields a 128-bit integer.
* **C98** Spec/Kept.lean states `Kept` (calls accepted, value read as the data) and what serde's derive calls for each attribute; proved for scalars and containers, then by the characterisations of C91 and C97 for structs, enums and flattened fields (induction over the parts with the keys taken so far).
* **C99** Spec/Blind.lean defines `AnyOrder` of a decoder by `Same` and `DSame` (paths, not lists). Proved compositionally from the characterisations of C91/C97 (each says what is read by what is under which key), with a version of the flatten loop that stores without re-buffering; the counterexample is computed.
* **C100** The `with_*` methods (Model/Config) and chains of them (Spec/Chain). Induction over the chain, with C12 for the files (`C100_same`, `C100_first_error`, `C100_in_place`, `C100_iff`).
* **C101** `createConfigR` (Model/MacroRace) for each process, steps of all writes interleaved (Model/Starts), histories (Spec/Starts). Each file is projected to a run of Model/Writers and C73_same_text settles it; C80 says what each process writes, C74's argument what it builds (`C101_files`, `C101_created`, `C101_builds`, `C101_later`, `C101_toml`); C73_bytes and C73_last_opener what holds at any moment and when processes die (`C101_any_moment`, `C101_killed`); the mixture is exhibited for a format faithful on both orders (`C101_mixture`).
* **C102** `SavedToml` (Spec/TomlSaving) describes the situation: the crate's own layers, a TOML-like file layer at its own place, a successful write, no None in the old file (TOML has none). From C84_save (what is built after a TOML save) and C07_last_speaker: a built None at or above a path where no later layer speaks is not the file's (null_from_lower), so where the built value is unset and the old file spoke it is silent, and C87's lemmas on clobbered places apply. Paths below a list are never unset, paths of keys only that end in None always are.
* **C103** `Spec/Editing.lean`: labelled transitions load/set/save of programs `ι` over (memory of each program, world), only successful calls; `Settings` is the log of the property; `Has` says that a map is the starting map with given settings (per key, last setting wins, with `omits` for formats without null). Invariant: file and memories have the settings of the log (in memory, None entries may still be there); preserved by each step, induction over the run (`C103_history`). `C103_last_saver` and `C103_taking_turns` are computed from the log; `C103_toml` supplies the premise for TOML-like codecs; `C103_built` with C07_last_speaker. Loads and saves are whole calls here; what happens when the reads and writes inside them interleave is C72/C73. Concrete: the lost update and the taking of turns over TOML.
* **C104** `Spec/Faults.lean`: C103's calls plus `outside` (any change of the world that keeps what paths name and the permission to read the file) and `quit`; `Origins` records for the file and for each program a base map and the settings since, restarted from what the file is found to read as after an outside change. Invariant as in C103 relative to the origins, and the file still may be read (C57_read_back needs it); induction over the run (`C104_history`). `C104_interrupted`: every world in which a save can fail or be killed (`CrashWorld`, C59) is an outside change. `C104_repair` from the invariant at load time and after the save (`has_trans`). Concrete: a save killed after its first byte leaves a text that parses; repaired by a program that had loaded before, made permanent by one that loads afterwards.
* **C105** Versions are the macro with other defaults (Spec/Versions.lean); after the first run every layer is settled (exists, or the OS refuses), so no later version writes; the build is a fold of merges whose terms are empty or alike the first defaults. (Props/Versions.lean)
* **C106** `Model/BaseDirs.lean` computes the base directories from the environment and the user database; lookups are characterised by splitting the list of variables at the first hit; paths by C50. (Props/BaseDirs.lean)
* **C107** The log of a configuration — `Model/Log.lean` repeats the functions that log, with their records; spec `Spec.BuildRecords`, `ReadRecords`, `VarRecord` (via `Lands`). Equality with the plain model function by function; the build by induction over the registered layers.
* **C108** Non-interference of the log — two runs side by side (`Spec.Twins`, `SameNames`), induction over the layers; the leak from C107_build.
* **C109** The log of create_config! — `createConfigLog` in `Model/Log.lean`; spec `Spec.MacroRecords` for one layer in the state the ones before left; C109_quiet by induction over the layers with `Created`.
* **C110** `C110_silent`: from C109_quiet (no layer dropped), C107 (no layer unreadable), C60_order (the order) and C07 (who is shown); the value is described by `MadeOf`, the contributions by `FileSays` and `EnvSays` (`Spec/SilentStart.lean`).
* **C111** When the order of layers is irrelevant — `Spec.Concur` (key paths only) shown equivalent to 'same view wherever both speak'; C01 twice for two overlays, C07's case split on both configurations for any permutation.
* **C112** What one more layer can and cannot achieve — `Spec.DropsNothing`; one direction C06 along the key path, the other C01 with the target itself as overlay; then C14 for configurations.
* **C113** When a layer can be left out — C07's last-speaker characterisation on both layer lists.
* **C114** Typed settings are layered field by field — `Spec.InParts` (types), `overlaidFields` (typed overlay), `Complete`; induction over the type, with the exact characterisation of struct reading and C01's entry-wise merge; then induction over the layers.
* **C115** Saving settings given in part into a TOML layer — compose C84 (what a TOML file gives back of a typed value) with C114 (typed layering): the layers other than the file read as before, the file reads as the saved settings with None entries omitted. C115_save_settings states it as a fold of overlays, C115_piece per field with the spec functions `gives`/`PieceAt`.
* **C116** Reading a map with typed keys — `Spec/Maps.lean` says when a text denotes a key (through the number grammar of C25, C29, C30). Induction over the entries gives the content of the read map relative to what has been inserted before.
* **C117** Settings stay readable when their type changes — `Spec/Evolution.lean` gives the allowed changes, what carrying content over means, and values without unknown keys, each as an inductive relation. Induction over the change, with the conversion theorems C23, C25, C27 for wider integers; what is saved has only known keys by induction over the typed data, and merging brings in none.
* **C118** Settings that were read can be saved and read again — `Props/Reread.lean`. Induction over the type: a successful read has the type (C118_typed), with the fuel of recursive structs by a second induction; data of a type without `Value` can be serialized, and the round trip of C37 applies (C118_reread), also with `Value`s, if what was read holds no 128-bit integer (C118_values, `Props/RereadValues.lean`); with C84 for the TOML file (C118_resave) and `OnlyKnown` of C117 for what is dropped (C118_forgotten).
* **C119** Settings depend only on what their type names — `Spec/Footprint.lean` gives the paths at which a type looks as an inductive relation on types and paths. Induction over the type as for C44, with agreement at these paths in place of indistinguishability (C119_footprint, C119_other_fields); the paths are closed under prefixes, so merging keeps agreement (C119_configurations); C113 gives the left-out layer (C119_layer), C54 the environment (C119_environment).
* **C120** Saving all settings pins them — `Spec/Pinned.lean` says when a value settles a type (it is silent at no path the type looks at), when settings lack something and which types have no maps. C07 makes the built value agree with the settling layer at these paths, C119 does the rest (C120_settled). Induction over typed data: serialized settings that lack nothing leave no such path unset; with C84 this goes through the file (C120_saved, C120_frozen). C120_table: map entries of an earlier layer come back.
* **C121** A built configuration can be exported to one file — `places` (in `Spec/Export.lean`) is the set of paths that lead somewhere. C07 gives where each place of a built value comes from (C121_places), and so depth and size (C121_depth, C121_size with C121_finite). TomlHolds is kept by merging (induction, C121_holds). C84 for the written file, C66 and pruning for typed reading, C119 for the importing configuration (C121_exported, C121_settings).
* **C122** What the environment can do to typed settings — `Spec/EnvSettings.lean` says which texts each type reads and what it reads; the typed reading of a text is compared with it by recursion on the type, and the built value field by field with the one below the environment layer.
* **C123** Everything stays inside the given directories — `DirectlyIn folder p` (Spec/Contained.lean) says what a path directly in a folder is, without reference to the model's join. Candidates of a plain name are shown to have this form; the searches depend on the world only through the existence of candidates. For create_config! an invariant over its layers (by induction): the registered calls are files inside, and two worlds that are the same inside stay the same inside (every write touches the place of its path only, and its effect depends on what is at that place only); then C13 gives the built value. Names with separators: a law on join, and a concrete run that writes outside.
* **C124** Building again after a settings file was changed from outside — `Reload` (Spec/Reload.lean) relates two worlds that differ at most at the file's place. All other layers read the same in both (by cases on the built-in layers); then C07 on both sides, with the last speaker found in the upper layers, the file or the lower layers. Missing and unreadable file: the loop of build_value is split at the file's layer. Typed settings: C119.
* **C125** Cascading settings files — the registrations are a list of calls built from the search's results. Lemmas: the paths listed, as far as they exist, are the existing candidates in order (from C47, C48); a missing file reads as an empty map and merging it changes nothing (C56, C02), so the build over the listed files equals the build over the existing candidates, whatever the names. The theorems then follow from the last-speaker theorem over this list of layers.
* **C126** The work and the stack of merging depend on the overlay and what it replaces — merge is modelled a second time with a log of its map operations, and a third time with a bound on the number of nested calls of merge, clone and the drop glue (Model/Cost.lean); both agree with the plain model. For maps without repeated keys the log of the loop is the concatenation of what each overlay entry does to the original receiver; membership, absence of repetitions and the bound on the sum follow by induction on the overlay. The stack theorems are by the same induction, with the depth stated by the length of paths.
* **C127** Programs with different settings types share one settings file — `Spec/Sharing.lean` has the calls (`Act`), their runs (`ActRun`, over the model's `read_value`, `deserialize`, `serialize`, `write_value`), the log (`Tables.after`: a table by field name in the file and in each memory) and what it means that the file holds a table (`FileHolds`: every program can load it given the stack, and whatever any of them loads has the table's entries in its fields). `C127_save`: a save by anyone establishes that. `C127_history`: it is kept by every run, by induction, with the log's table. `C127_last_saver`, `C127_taking_turns`: what follows for one field. `C127_required`: the condition on missing fields is needed. `C38_stack` (Props/Stack.lean): a typed read that does not run out of stack gives the same, result or error, with any larger stack, by induction on the type with the order 'equal unless overflow'.
* **C128** Windows — the path functions of std for Windows (prefix, join, file name, extension) are modelled on their own and the searches, `add_file_layer`, the directories and the layer search of `create_config!` over the path functions of any platform; with those of Unix they are proved equal to the model used elsewhere. The flat loops of C45–C48 are reused; the candidates are characterised by lemmas about the prefix of `folder ++ name`.
* **C129** What was read from a TOML file can always be written back — `Spec/Restore.lean`: the documents a TOML parser delivers (`TomlDoc`), codecs that deliver only those (`TomlReads`), chains of copies (`CopyOf`). `Props/Restore.lean`: the heads of the read value by C65, hence `TomlHolds`, no None, one kind of integer; with C84's read-back (equal up to None entries and kinds of integers) this gives equality at every path; then C124 for the rebuilt value and C119 for typed settings. Witness: a codec that both prints and parses like TOML (`exTomlS`).
* **C130** Starts that are killed, or run out of disk space — model in Model/MacroCrash.lean: the worlds in which a process can die while the macro goes through its layers (between two layers, or in the middle of the `std::fs::write` of an `init` part, by `CrashWorld` of Model/Crash.lean). Spec/Killed.lean says what may have been begun, what a history of starts is and what a leftover is. (1) by induction over the layers; (2) over the history; (4) from the invariant that nothing more would be written (`Stuck`); (5) by folding the merge over what each layer reads: nothing, the defaults (up to the kind of integers) or a leftover; (6) a witness; (7) in Props/KilledToml.lean, the same fold with what TOML keeps of the defaults (`AlikeMaybe`, as in C85).
* **C131** Validated settings stay valid — model: Model/Checked.lean (types with checks, over the decoders of Serde.lean and Attrs.lean). Spec: Spec/Checked.lean (Passed: made by its conversion, at every depth; Honest: keys claimed once, defaults have passed). Proof: induction over the type for C131_passed and C131_no_panic, using C90_exact for structs; C131_config, C131_refused, C131_override add C08, C14, C75; C131_kept composes with C98.
* **C132** Every error has a culprit; what it reveals — Spec: `Reaches` (the parts a type reads, with their path and type), `Complains` (the finite list of complaints with their exact texts), `OccursIn`, `HiddenOnly`, `Quiet`. Errors of the visitor loops are traced back by induction on the type and on the stack depth (`C132_origin`), successes forward along `Reaches` (`C132_exact`); the display text of a part is an infix of the whole's; unnamed entries are filtered out of the struct loop without changing its outcome.
* **C133** A setting and its text — Spec/Quoting.lean: TextAgrees, MeansSame (the table), ShownWhole, FloatRefused, ReadWith. C133_exact (both directions, all scalars and targets), C133_float_text (the shortest decimal of a whole float up to 2^53 is the number; beyond it rounds to it), C133_typed, C133_env (on C122).
* **C134** Which files decide — Spec/Deciding.lean: FirstThere, LastThere, consulted, PlaceTaken, SameDeciding. C134_first/_last (iff, from C45/C46), C134_all (iff, from C47/C48/C51), C134_written and C134_decides (two runs in lockstep: the same at the places taken, unchanged elsewhere, nothing goes away; a file made by init is at a place taken), C134_takeover (without init).
* **C135** Nesting and the stack — Model/Nesting.lean models drop, Display, serialization, comparison and the visitor a second time with the number of nested calls left. C135_exact and C135_compare by induction on the value (depth stated by the length of paths), C135_read by induction on the document, C135_program from C126_build_stack and C121_depth, C135_made by induction on the keys.
* **C136** Requests to the operating system — Model/Asks.lean models the searches, the layers, build_value and create_config! a second time, each with the list of everything it asks of the outside world, in order; every one is proved to give the result of the plain model (C136_find_first, C136_find_last, C136_find_all, C136_find_all_or_first, C136_build, C136_write, C136_start) and to ask exactly the list of Spec/Asks.lean, by induction on the candidates and layers; C136_bound, C136_build_bound, C136_start_only and C136_start_quiet follow.
* **C137** Formats enabled and disabled — the features are the structure Build of Model/Finder.lean; the theorems compare two builds in the same world. C137_given and C137_add by cases; C137_start shows by induction on the layers that the same candidate is chosen at every step, with the invariant that only places of files taken have changed (from C134); C137_takeover, C137_none and C137_shadow (with C67_init_exact) say what does change.
* **C138** A configuration can be moved — Spec/Moved.lean relates two worlds by a one-to-one relation between places, and two histories of registrations (or two macro calls) by a renaming; a simulation: corresponding layers read and write the same and keep the relation (write_twin), offers, first offers and lookups correspond (injectivity of the renaming), the chosen candidates correspond, and the macro's loop keeps the correspondence (foldl_twin); saves by induction.
* **C139** The worst a configuration can do — Spec/Worst.lean: Explosive (inductive on types), ExplosiveText, Fillable. A panic is traced to its cause by induction on the type inside an induction on the stack (explosive_of_panic, explosive_refs); conversely a value is built along the derivation of Explosive (explosive_explodes); Fillable likewise in both directions (fillable_of, readable_of). Programs: with C95_defaults, C14_add_last, C54_reads, C122_reachable.
* **C140** Which settings can be said at all — Spec/Sayable.lean: Sayable (inductive on types and data, with a flag for nulls), NoNone, Nothing, NullFreeFormat. From a read to Sayable by induction on the type inside an induction on the stack (nothing_source, sayable_de, sayable_refs); back by building, along the derivation, a value that is unique-keyed, free of None if asked, storable in TOML and without two spellings of one key (Witness, say). Programs: with C07_cases, C08_map, C14_add_last, C56_content, C65_content, C66_deserialize, TomlLike.
* **C141** Which settings the environment can bring about — Spec/EnvReach.lean: LegalEnv, Nameable, TextSayable. The texts of numbers have no NUL (from Spells, SpellsFloat) and read back (C34, deKey_keyText, f32_roundtrip); an environment is built for the fields that need a variable (env_for), each variable landing on its key alone (lands_unique, C122_reachable); both directions then are C122_overrides.
* **C142** Which settings a layer on top can bring about — Spec/OnTop.lean: OnTop (by recursion on the type, beside what the layers below have at the place), Stays, KeepsSet. Maps in sections have text keys (PlainSections); they keep their keys and may get more. What a layer on top does to a place is `overlaid` (from the law of merge); OnTop is met by everything read (onTop_de, induction on the type, with C140 outside of sections), and a value is built for everything of the kind (bring), which by C84/C66 a TOML file can hold.
* **C143** Optional flattened sections — Model/FlatOption.lean: what serde's FlatMapDeserializer does to the buffer that deserialize_map/deserialize_any filled, with the entries taken one by one until an error. Spec/FlatOption.lean: FlatGet, Leaves, SectionReads. Proof: takeLoop characterised by the first bad entry (first_bad), then induction on the parts; C143_env by C91_text over what build_value gives (env_entry); C143_order by constructing the other order.
* **C144** A flattened enum depends on the order of the hash map when two layers name different variants — Model/FlatOption.lean: FlatPart.choice (FlatMapDeserializer::deserialize_enum takes the first entry that names a variant), optChoice, view (types that look at all entries). Spec: FirstNamed, Chosen, VariantReads. C143_flatten covers them; C144_orders by putting the entry first; C144_layers by the law that merged maps keep all keys; C144_tag and C144_view by C91_tagged_within and C99.
* **C145** A catch-all field keeps the keys a program does not know — Model/CatchAll.lean: Reader.value, CatchAll, FlatCalls (serde's calls for a struct with flatten, any order). Spec: Keeper, Session, Sessions, FileSessions, AlikeUnder. C145_read from C143_flatten and deValue_ok; C145_saves, C145_save from ser_texts (a map with text keys) and C36; C145_history, C145_files by induction over the sessions with C84_read_back; C145_env from C76.
* **C146** Two layers on top can make every setting whatever can be said — Spec/TwoTops.lean: KeptOrSaid (each field Stays or is Sayable). C146_two: over texts in the place of the changed fields every witness of C140 is read unchanged (tops_text, tops_fields); C146_whatever and C146_files with texts under all names; C146_only: a key never goes away when layers are added (key_stays, from the fold over the layers' entries) and C140_only seen through a newtype; C146_enough from both.
* **C147** When saved settings are what is read — Spec/ComesBack.lean: ComesBack (what the layers below have, beside the settings saved). By induction on the type, reading what is overlaid gives what the top alone gives exactly if nothing comes back (topReads_de); with C84 for what a TOML file gives back. Layers above the file that say nothing where the type looks change nothing there (quiet_above), so by C119 the same is read (C147_under). Conversely nothing comes back in anything that is read with a layer without None on top (nothing_back).
* **C148** Unset settings stay unset where None can be written — Spec/SetAside.lean: ShowsThrough (what the layers below have, what the layer on top has, the settings it alone gives) and EntryBack (what the layers below have, the settings). By induction on the type, reading what is overlaid gives what the top alone gives exactly if nothing shows through (through_de); what is serialized names every setting (all_named), so of ShowsThrough only EntryBack remains. Conversely no entry comes back in anything that is read with any layer on top (no_entry_back).

## Axioms of each theorem

* no axioms: C79_finder_text
* `propext`: C02_merge_empty, C03_not_associative, C16_from_new, C16_pushes, C18_wrong_kind, C19_value_vec, C20_len_other, C52_supported, C59_every_prefix, C63_exists_at_check, C68_elements, C68_variant, C69_alternating, C69_keys_only, C69_map_access, C69_values_only, C73_nothing_else, C79_eq, C99_refused
* `propext`, `Quot.sound`: C05_kind, C05_nonmap_noop, C104_interrupted, C126_work, C136_write, C15_set_ok, C22_from, C22_macros, C22_unique_keys, C59_crash, C64_kind_is_stable, C64_kinds, C69_elements, C72_moments
* `propext`, `Classical.choice`, `Quot.sound`: C01_merge_overlay, C01_nonmap_replaces, C02_empty_merge, C02_merge_self, C02_merge_twice, C03_grouping, C04_order_independent, C06_key_union, C06_len, C06_submap, C07_cases, C07_last_speaker, C07_nobody_speaks, C08_builtin_proper, C08_map, C09_skip, C100_first_error, C100_iff, C100_in_place, C100_same, C101_any_moment, C101_builds, C101_created, C101_files, C101_killed, C101_later, C101_mixture, C101_toml, C102_edit, C102_frame, C102_last_layer, C102_save_built, C102_twice, C102_unchanged, C103_built, C103_history, C103_last_saver, C103_taking_turns, C103_toml, C104_history, C104_repair, C105_files_stay, C105_first_defaults_stick, C105_leaves_file, C105_other_places, C105_toml, C105_typed, C106_home, C106_layer, C106_linux, C106_macos, C106_only_two_variables, C107_build, C107_quiet, C107_registering, C107_same, C107_warnings, C108_build, C108_leaks, C108_write, C109_log, C109_quiet, C109_same, C109_swallowed, C109_texts, C109_warnings, C10_first_error, C10_success, C110_silent, C111_order, C111_path, C111_succeeds, C111_two, C112_build, C112_reach, C113_path, C113_shows_through, C113_succeeds, C114_build, C114_merge, C114_none_hides, C114_none_hides_below, C114_one_suffices, C114_piece, C114_required, C114_settings, C115_piece, C115_save_settings, C116_content, C116_entry, C116_reads, C117_agree, C117_layers, C117_saved, C117_taken, C117_taken_name, C117_upgrade, C118_forgotten, C118_reread, C118_resave, C118_typed, C118_values, C119_configurations, C119_environment, C119_footprint, C119_layer, C119_other_fields, C11_first_wins, C11_stable, C11_taken, C120_frozen, C120_saved, C120_settled, C120_table, C121_depth, C121_environment, C121_exported, C121_finite, C121_holds, C121_places, C121_settings, C121_settings_values, C121_size, C122_breaks, C122_fits, C122_overrides, C122_program, C122_reachable, C122_safe, C122_text, C123_blind, C123_escapes, C123_search, C123_search_blind, C123_start, C123_subfolder, C124_broken, C124_gone, C124_path, C124_restored, C124_settings, C125_else, C125_error, C125_none, C125_same, C125_shows, C126_build_stack, C126_build_work, C126_operations, C126_stack, C127_history, C127_last_saver, C127_required, C127_save, C127_taking_turns, C128_dirs, C128_dotted, C128_elsewhere, C128_extension, C128_file_layer, C128_find_all, C128_find_all_or_first, C128_find_first, C128_find_last, C128_index_overflow, C128_join, C128_layer, C128_network, C128_plain, C128_same_code, C128_separator, C128_user_config, C129_accepted, C129_copies, C129_rebuilt, C129_restore, C129_settings, C129_values, C12_accepts, C12_rejects, C12_with, C130_defaults, C130_every_beginning, C130_history, C130_left, C130_next, C130_settled, C130_start_end, C130_toml, C130_wrong_for_ever, C131_absent, C131_checked, C131_config, C131_inside, C131_kept, C131_lost, C131_no_panic, C131_override, C131_passed, C131_refused, C132_anonymous, C132_attrs, C132_exact, C132_hidden, C132_layer, C132_only, C132_origin, C132_quiet, C132_scalar, C132_shown, C133_env, C133_exact, C133_float_text, C133_typed, C134_all, C134_decides, C134_first, C134_last, C134_takeover, C134_written, C135_compare, C135_exact, C135_made, C135_order, C135_program, C135_read, C136_bound, C136_build, C136_build_bound, C136_find_all, C136_find_all_or_first, C136_find_first, C136_find_last, C136_start, C136_start_only, C136_start_quiet, C137_add, C137_given, C137_none, C137_shadow, C137_start, C137_takeover, C138_registered, C138_start, C139_env, C139_env_only, C139_field, C139_file, C139_readable, C139_safe, C139_start, C139_type, C13_only_inputs, C140_file, C140_gaps, C140_memory, C140_only, C140_say, C141_alone, C141_never, C141_reach, C141_text, C142_file, C142_keeps, C142_only, C142_top, C143_env, C143_flatten, C143_order, C143_same, C143_sections, C143_swallows, C144_env, C144_layers, C144_order, C144_orders, C144_tag, C144_view, C145_again, C145_env, C145_files, C145_history, C145_last_saver, C145_lost, C145_read, C145_save, C145_saves, C145_toml, C146_enough, C146_files, C146_only, C146_two, C146_whatever, C147_else, C147_saved, C147_top, C147_under, C148_else, C148_saved, C148_top, C148_under, C14_add_last, C14_failing, C14_override, C15_from_new, C15_get_after_sets, C15_keys_after_sets, C17_iter, C18_chain, C19_value_map, C20_len_map, C20_len_updates, C21_eq_iff, C21_refl, C21_symm_trans, C22_every_history, C23_bool_to_int, C23_int_to_int, C24_containers, C24_int_roundtrip, C24_scalar_roundtrip, C24_stored, C25_examples, C25_string_to_int, C26_int_text_roundtrip, C26_text_injective, C27_float_to_int, C27_float_to_u128, C27_nan_inf, C28_back, C28_bool_to_float, C28_int_to_float, C28_lossy, C29_number_to_bool, C29_string_to_bool, C30_int_to_char, C30_to_char, C31_containers_never_convert, C31_error_exact, C31_error_names_target, C32_into_or, C33_display_containers, C33_string_is_display, C34_float_text_roundtrip, C34_injective, C35_deserialize_value, C36_serialize_value, C37_nested_option_lost, C37_typed_roundtrip, C38_depth_exists, C38_enum_bytes_panic, C38_no_panic, C38_stack, C39_missing_required, C39_nonmap, C39_own_keys, C39_struct, C40_surplus_dropped, C40_tuple, C40_vec, C41_layout, C41_never_panics, C41_scalars, C41_succeeds_iff, C42_map_keys, C42_text_injective, C43_direct_conversion, C43_no_128, C44_clash_is_real, C44_order_independent, C44_string_keys_never_clash, C45_find_first, C46_find_last, C47_find_all, C47_index_overflow, C48_find_all_or_first, C49_separator, C49_validation, C50_absolute, C50_dotted, C50_empty_extension, C50_extension, C50_join, C50_no_file_name, C50_plain, C51_exists, C51_from, C51_truthful, C52_builder, C52_no_base_dirs, C52_resolves, C53_agree, C53_all_true, C54_cases, C54_plain, C54_reads, C55_blank, C55_collision_witness, C55_collisions, C55_junk, C55_readable, C56_content, C56_disk, C56_errors, C56_missing, C56_missing_no_effect, C57_others, C57_read_back, C57_write, C58_can_write_lies, C58_has_value, C58_memory_fixed, C58_names, C58_read_only, C59_end, C59_loss, C60_default_first, C60_defaults_underneath, C60_env_wins, C60_order, C61_existing_kept, C61_init_safe, C61_no_init, C61_repeated_name_overwrites, C62_fresh_defaults, C62_second_run, C63_lost, C63_lost_witness, C65_content, C65_determined, C65_succeeds, C66_build, C66_conversions, C66_deserialize, C66_deserialize_values, C66_file, C66_kind_is_lost, C66_merge, C66_reads, C66_settings, C66_typed, C67_init_creates, C67_init_exact, C68_panics_iff, C68_pending, C68_question_mark, C68_result, C68_standard, C69_standard, C70_find_all, C70_find_all_or_first, C70_find_first, C70_find_last, C70_flag_may_contradict, C70_persistent, C70_undisturbed, C71_file_reading, C71_only_under_race, C71_skip, C71_snapshot, C71_undisturbed, C72_alone, C72_mixture, C72_prefix, C72_torn, C73_alone, C73_bytes, C73_hole, C73_last_opener, C73_mixture, C73_same_text, C74_every_run, C74_typed_default, C74_typed_struct, C74_typed_values, C75_section, C75_typed_struct, C76_env_typed, C77_failed_save, C77_save, C78_later, C78_panics, C78_same, C79_conversions, C79_layer_text, C79_model_text, C79_text, C80_alone, C80_config, C80_damage, C80_writes, C81_capped, C81_error, C81_long, C81_number, C81_words, C82_f32, C82_rounded_twice, C82_scalars, C83_bool_back, C83_float_shortest, C83_integer, C83_words, C84_get, C84_map_of_options, C84_none_does_not_hide, C84_none_in_memory_hides, C84_read_back, C84_save, C84_stable, C84_typed, C84_typed_values, C84_write, C85_all, C85_every_run, C85_lost, C85_typed_struct, C85_typed_values, C86_edit, C86_frame, C87_last_layer, C87_save_built, C87_twice, C87_unchanged, C88_cases, C88_get_layer, C88_last_speaker, C88_reads_each_once, C88_record, C88_stateless, C88_stops, C88_write, C89_debug, C89_debug_builtin, C89_environment, C89_environment_exact, C89_file, C89_file_written, C90_defaults, C90_deny, C90_exact, C90_nonmap_no_panic, C90_own_keys, C90_plain, C90_roundtrip, C90_split_alias, C91_buffer, C91_containers, C91_differences, C91_enum, C91_env, C91_flatten, C91_scalars, C91_tagged, C91_tagged_list, C91_tagged_within, C91_text, C91_untagged, C92_buffer, C92_faithful, C92_hints, C92_one_call, C92_panics, C92_self, C92_types, C92_which, C93_duration, C93_duration_roundtrip, C93_never, C93_nonzero, C93_parsed, C93_range, C93_set, C93_text, C94_display, C94_display_order, C94_error_order, C94_goes_on, C94_hash_order, C95_defaults, C95_example, C95_floor, C95_key_kept, C95_removed, C95_typed, C96_bytes_differ, C96_format_matters, C96_goes_on, C96_hash_order, C97_config, C97_direct, C97_inside, C97_list, C97_order, C97_written, C98_adjacent, C98_containers, C98_enum, C98_flatten, C98_scalars, C98_struct, C98_tagged, C98_untagged, C98_untagged_lost, C99_adjacent, C99_adjacent_order, C99_containers, C99_enum, C99_flatten, C99_kept, C99_scalars, C99_struct, C99_tagged, C99_untagged
