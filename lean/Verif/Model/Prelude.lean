/-!
# Outcomes and error types

Models the `Result`-or-panic outcome of a Rust call and the crate's error enums.
-/
namespace Verif

/-- Outcome of a Rust call that may return `Err` or panic.
Models `Result<T, E>` plus the panics at /repo/src/model/de.rs:134, 141, 246, 328
(`unimplemented!()`, `unwrap`) and /repo/src/model/ser.rs:345 (`expect`). -/
inductive Outcome (ε α : Type) where
  | ok (a : α)
  | err (e : ε)
  | panic
  deriving DecidableEq, Repr

namespace Outcome
/-- The `?` operator: /repo/src/model/ser.rs and de.rs, every `?`. -/
@[simp] def bind {ε α β : Type} : Outcome ε α → (α → Outcome ε β) → Outcome ε β
  | ok a, f => f a
  | err e, _ => err e
  | panic, _ => panic

instance {ε : Type} : Monad (Outcome ε) where
  pure := ok
  bind := bind

@[simp] theorem pure_def {ε α : Type} (a : α) : (pure a : Outcome ε α) = ok a := rfl
@[simp] theorem bind_ok {ε α β : Type} (a : α) (f : α → Outcome ε β) :
    (ok a >>= f) = f a := rfl
@[simp] theorem bind_err {ε α β : Type} (e : ε) (f : α → Outcome ε β) :
    ((err e : Outcome ε α) >>= f) = err e := rfl
@[simp] theorem bind_panic {ε α β : Type} (f : α → Outcome ε β) :
    ((panic : Outcome ε α) >>= f) = panic := rfl

/-- Embedding of a panic-free `Result`. Needed for /repo/src/model/de.rs:134 (the only panics are `unimplemented!` and `unwrap`/`expect`). -/
@[simp] def ofExcept {ε α : Type} : Except ε α → Outcome ε α
  | .ok a => ok a
  | .error e => err e

end Outcome

/-- /repo/src/model/errors.rs:4-19 `ModelError`. -/
inductive ModelError where
  | operationOnlyForMapValue
  | operationOnlyForArrayValue
  | serializationError (msg : String)
  | deserializationError (msg : String)
  | conversionError (source target why : String)
  deriving DecidableEq, Repr

/-- /repo/src/config_layer/error.rs:4-25 `ConfigLayerError` (the `IOError` variant, lines 20-21, is never
constructed by the crate and is omitted). -/
inductive ConfigLayerError where
  | writeNotSupported
  | errorReadingValue (msg : String)
  | errorWritingValue (msg : String)
  | parseError (msg : String)
  | serializeError (msg : String)
  | unsupportedExtension (ext : String)
  deriving DecidableEq, Repr

/-- /repo/src/file_finder/error.rs:5-21 `FileFinderError` (`ReadDirectoryError`, lines 14-16, is never
constructed by the crate and is omitted). -/
inductive FileFinderError where
  | noFoldersDefined
  | noFilesFound
  | noExtensionsDefined
  deriving DecidableEq, Repr

/-- `std::io::Error`, reduced to the cases the model can produce. Needed for /repo/src/bak_error.rs:1-15. -/
inductive IoError where
  /-- the OS refuses the operation (permissions, missing parent directory, is a directory, …) -/
  | refused (code : Nat)
  /-- `read_to_string` on content that is not UTF-8 -/
  | invalidData
  deriving DecidableEq, Repr

/-- /repo/src/bak_error.rs:4-13 `BakuninError`. -/
inductive BakuninError where
  | ioError (e : IoError)
  | modelError (e : ModelError)
  | configLayerError (e : ConfigLayerError)
  | fileFinderError (e : FileFinderError)
  /-- an error value produced by user code (a user-defined layer); only its identity matters -/
  | custom (code : Nat)
  deriving DecidableEq, Repr

end Verif
