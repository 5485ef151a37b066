import Verif.Model.Prelude
/-!
# Errors as the user sees them: equality and texts

Models /repo/src/model/errors.rs, /repo/src/bak_error.rs, /repo/src/config_layer/error.rs and /repo/src/file_finder/error.rs
(the `#[error(…)]` attributes, which `thiserror` turns into `Display`).
-/
namespace Verif

/-- /repo/src/model/errors.rs:43-70 the hand-written `PartialEq for ModelError`. -/
def ModelError.eq : ModelError → ModelError → Bool
  | .operationOnlyForMapValue, .operationOnlyForMapValue => true
  | .operationOnlyForArrayValue, .operationOnlyForArrayValue => true
  | .serializationError m1, .serializationError m2 => m1 == m2
  | .deserializationError m1, .deserializationError m2 => m1 == m2
  | .conversionError f1 t1 w1, .conversionError f2 t2 w2 => f1 == f2 && t1 == t2 && w1 == w2
  | _, _ => false

/-- /repo/src/model/errors.rs:4-19 `Display for ModelError`. -/
def ModelError.display : ModelError → String
  | .operationOnlyForMapValue => "Operation only supported for map Value"
  | .operationOnlyForArrayValue => "Operation only supported for array Value"
  | .serializationError m => "Error serializing from value: " ++ m
  | .deserializationError m => "Error deserializing to value: " ++ m
  | .conversionError f t w => "Error converting from " ++ f ++ " to " ++ t ++ ": " ++ w

/-- /repo/src/config_layer/error.rs:3-25 `Display for ConfigLayerError`. -/
def ConfigLayerError.display : ConfigLayerError → String
  | .writeNotSupported => "Writing to this layer is not supported"
  | .errorReadingValue m => "Failed to read value: " ++ m
  | .errorWritingValue m => "Failed to write value: " ++ m
  | .parseError m => "Failed to parse value: " ++ m
  | .serializeError m => "Failed to serialize value: " ++ m
  | .unsupportedExtension e => "Unsupported extension: " ++ e

/-- /repo/src/file_finder/error.rs:4-21 `Display for FileFinderError`. -/
def FileFinderError.display : FileFinderError → String
  | .noFoldersDefined => "No folders were defined"
  | .noFilesFound => "No files were found"
  | .noExtensionsDefined => "No extensions were defined"

/-- /repo/src/bak_error.rs:3-13 `Display for BakuninError`; `io` is the text std gives an I/O error, and `user` that of an error that
user code made. -/
def BakuninError.display (io : IoError → String) (user : Nat → String) : BakuninError → String
  | .ioError e => "IO Error: " ++ io e
  | .modelError e => "Model Error: " ++ e.display
  | .configLayerError e => "Config Layer Error: " ++ e.display
  | .fileFinderError e => "File Finder Error: " ++ e.display
  | .custom code => user code

end Verif
