import Verif.Model.Errors
import Verif.Props.Convert
/-! # C79: errors can be told apart -/
namespace Verif.Props
open Spec

/-- **C79.** The hand-written equality of model errors is equality of all their data. -/
theorem C79_eq (a b : ModelError) : a.eq b = true ↔ a = b := by
  cases a <;> cases b <;> simp [ModelError.eq, and_assoc]

/-- The names inside a conversion error are names: no space in the source, no colon in the target. -/
def NamesKinds : ModelError → Prop
  | .conversionError source target _ => ' ' ∉ source.toList ∧ ':' ∉ target.toList
  | _ => True

theorem append_sep_inj {α : Type} {c : α} {l l' r r' : List α} (h : c ∉ l) (h' : c ∉ l') (e : l ++ c :: r = l' ++ c :: r') :
    l = l' ∧ r = r' := by
  induction l generalizing l' with
  | nil =>
    cases l' with
    | nil => simpa using e
    | cons a l' => simp at e; exact absurd (by simp [e.1]) h'
  | cons a l ih =>
    cases l' with
    | nil => simp at e; exact absurd (by simp [e.1]) h
    | cons a' l' =>
      simp only [List.cons_append, List.cons.injEq] at e
      obtain ⟨rfl, e⟩ := e
      obtain ⟨h1, h2⟩ := ih (fun m => h (by simp [m])) (fun m => h' (by simp [m])) e
      exact ⟨by rw [h1], h2⟩

theorem append_left_inj' {p s t : String} (h : p ++ s = p ++ t) : s = t := by
  have h : p.toList ++ s.toList = p.toList ++ t.toList := by rw [← String.toList_append, ← String.toList_append, h]
  exact String.toList_inj.1 (List.append_cancel_left h)

theorem conv_inj {f t w f' t' w' : String} (hf : ' ' ∉ f.toList) (hf' : ' ' ∉ f'.toList) (ht : ':' ∉ t.toList) (ht' : ':' ∉ t'.toList)
    (h : "Error converting from " ++ f ++ " to " ++ t ++ ": " ++ w = "Error converting from " ++ f' ++ " to " ++ t' ++ ": " ++ w') :
    f = f' ∧ t = t' ∧ w = w' := by
  simp only [String.append_assoc] at h
  have h := append_left_inj' h
  have h : f.toList ++ ' ' :: ("to ".toList ++ (t.toList ++ ':' :: (" ".toList ++ w.toList))) =
      f'.toList ++ ' ' :: ("to ".toList ++ (t'.toList ++ ':' :: (" ".toList ++ w'.toList))) := by
    have := congrArg String.toList h
    simpa [String.toList_append] using this
  obtain ⟨h1, h2⟩ := append_sep_inj hf hf' h
  obtain ⟨h3, h4⟩ := append_sep_inj ht ht' (List.append_cancel_left h2)
  exact ⟨String.toList_inj.1 h1, String.toList_inj.1 h3, String.toList_inj.1 (List.append_cancel_left h4)⟩

/-! The texts, constructor by constructor (unfolding through the equation compiler evaluates the string literals, which is slow). -/

theorem text_map : ModelError.operationOnlyForMapValue.display = "Operation only supported for map Value" := by
  delta ModelError.display; dsimp only
theorem text_array : ModelError.operationOnlyForArrayValue.display = "Operation only supported for array Value" := by
  delta ModelError.display; dsimp only
theorem text_ser (m : String) : (ModelError.serializationError m).display = "Error serializing from value: " ++ m := by
  delta ModelError.display; dsimp only
theorem text_de (m : String) : (ModelError.deserializationError m).display = "Error deserializing to value: " ++ m := by
  delta ModelError.display; dsimp only
theorem text_conv (f t w : String) :
    (ModelError.conversionError f t w).display = "Error converting from " ++ f ++ " to " ++ t ++ ": " ++ w := by
  delta ModelError.display; dsimp only
theorem text_noWrite : ConfigLayerError.writeNotSupported.display = "Writing to this layer is not supported" := by
  delta ConfigLayerError.display; dsimp only
theorem text_read (m : String) : (ConfigLayerError.errorReadingValue m).display = "Failed to read value: " ++ m := by
  delta ConfigLayerError.display; dsimp only
theorem text_write (m : String) : (ConfigLayerError.errorWritingValue m).display = "Failed to write value: " ++ m := by
  delta ConfigLayerError.display; dsimp only
theorem text_parse (m : String) : (ConfigLayerError.parseError m).display = "Failed to parse value: " ++ m := by
  delta ConfigLayerError.display; dsimp only
theorem text_print (m : String) : (ConfigLayerError.serializeError m).display = "Failed to serialize value: " ++ m := by
  delta ConfigLayerError.display; dsimp only
theorem text_ext (m : String) : (ConfigLayerError.unsupportedExtension m).display = "Unsupported extension: " ++ m := by
  delta ConfigLayerError.display; dsimp only
theorem text_io (io : IoError → String) (user : Nat → String) (e : IoError) :
    (BakuninError.ioError e).display io user = "IO Error: " ++ io e := by
  delta BakuninError.display; dsimp only
theorem text_model (io : IoError → String) (user : Nat → String) (e : ModelError) :
    (BakuninError.modelError e).display io user = "Model Error: " ++ e.display := by
  delta BakuninError.display; dsimp only
theorem text_layer (io : IoError → String) (user : Nat → String) (e : ConfigLayerError) :
    (BakuninError.configLayerError e).display io user = "Config Layer Error: " ++ e.display := by
  delta BakuninError.display; dsimp only
theorem text_finder (io : IoError → String) (user : Nat → String) (e : FileFinderError) :
    (BakuninError.fileFinderError e).display io user = "File Finder Error: " ++ e.display := by
  delta BakuninError.display; dsimp only

/-- **C79.** The texts of two model errors are the same only if the errors are (the names in them being names). -/
theorem C79_model_text (a b : ModelError) (ha : NamesKinds a) (hb : NamesKinds b) (h : a.display = b.display) : a = b := by
  cases a <;> cases b
  case operationOnlyForMapValue.operationOnlyForMapValue => rfl
  case operationOnlyForArrayValue.operationOnlyForArrayValue => rfl
  case serializationError.serializationError m m' => simp only [text_map, text_array, text_ser, text_de, text_conv] at h; rw [append_left_inj' h]
  case deserializationError.deserializationError m m' => simp only [text_map, text_array, text_ser, text_de, text_conv] at h; rw [append_left_inj' h]
  case conversionError.conversionError f t w f' t' w' =>
    simp only [text_map, text_array, text_ser, text_de, text_conv] at h
    obtain ⟨rfl, rfl, rfl⟩ := conv_inj ha.1 hb.1 ha.2 hb.2 h
    rfl
  all_goals
    exfalso
    have h := congrArg String.toList h
    simp [text_map, text_array, text_ser, text_de, text_conv, String.toList_append] at h

/-- **C79.** The texts of two layer errors are the same only if the errors are. -/
theorem C79_layer_text (a b : ConfigLayerError) (h : a.display = b.display) : a = b := by
  cases a <;> cases b
  case writeNotSupported.writeNotSupported => rfl
  case errorReadingValue.errorReadingValue => simp only [text_noWrite, text_read, text_write, text_parse, text_print, text_ext] at h; rw [append_left_inj' h]
  case errorWritingValue.errorWritingValue => simp only [text_noWrite, text_read, text_write, text_parse, text_print, text_ext] at h; rw [append_left_inj' h]
  case parseError.parseError => simp only [text_noWrite, text_read, text_write, text_parse, text_print, text_ext] at h; rw [append_left_inj' h]
  case serializeError.serializeError => simp only [text_noWrite, text_read, text_write, text_parse, text_print, text_ext] at h; rw [append_left_inj' h]
  case unsupportedExtension.unsupportedExtension => simp only [text_noWrite, text_read, text_write, text_parse, text_print, text_ext] at h; rw [append_left_inj' h]
  all_goals
    exfalso
    have h := congrArg String.toList h
    simp [text_noWrite, text_read, text_write, text_parse, text_print, text_ext, String.toList_append] at h

/-- **C79.** The texts of two finder errors are the same only if the errors are. -/
theorem C79_finder_text (a b : FileFinderError) (h : a.display = b.display) : a = b := by
  cases a <;> cases b <;> first | rfl | (exact absurd h (by decide))

/-- What the text of an error of the crate tells about it: everything, except that of an I/O error it tells what std's text does. -/
def SameError (io : IoError → String) : BakuninError → BakuninError → Prop
  | .ioError e, .ioError e' => io e = io e'
  | a, b => a = b

/-- **C79.** Two errors of the crate with the same text are the same error, of the same part of the crate (errors made by user code aside). -/
theorem C79_text (io : IoError → String) (user : Nat → String) (a b : BakuninError)
    (ha : ∀ n, a ≠ .custom n) (hb : ∀ n, b ≠ .custom n)
    (na : ∀ e, a = .modelError e → NamesKinds e) (nb : ∀ e, b = .modelError e → NamesKinds e) :
    a.display io user = b.display io user ↔ SameError io a b := by
  constructor
  · intro h
    cases a <;> cases b <;> try simp only [text_io, text_model, text_layer, text_finder] at h
    case ioError.ioError e e' => exact append_left_inj' h
    case modelError.modelError e e' =>
      rw [C79_model_text e e' (na e rfl) (nb e' rfl) (append_left_inj' h)]; rfl
    case configLayerError.configLayerError e e' => rw [C79_layer_text e e' (append_left_inj' h)]; rfl
    case fileFinderError.fileFinderError e e' => rw [C79_finder_text e e' (append_left_inj' h)]; rfl
    all_goals
      first
        | exact absurd rfl (ha _)
        | exact absurd rfl (hb _)
        | (exfalso
           have h := congrArg String.toList h
           simp [String.toList_append] at h)
  · intro h
    cases a <;> cases b <;> first
      | (have h : io _ = io _ := h
         rw [text_io, text_io, h])
      | (cases h; rfl)
      | cases h

/-- **C79.** The errors of the fourteen conversions name kinds, so their texts tell exactly which conversion failed and why. -/
theorem C79_conversions (s s' : Scalar) (v v' : Value) (e e' : ModelError) (h : v.tryInto s = .error e) (h' : v'.tryInto s' = .error e')
    (ht : e.display = e'.display) :
    e = e' ∧ namedSource s v = namedSource s' v' ∧ namedReason s v = namedReason s' v' := by
  have names : ∀ s v e, Value.tryInto s v = .error e → NamesKinds e := by
    intro s v e h
    rw [C31_error_exact s v e h]
    refine ⟨?_, ?_⟩
    · cases v <;> simp only [namedSource] <;> first | decide | (split <;> decide)
    · split
      · decide
      · cases s with
        | int t => cases t <;> decide
        | _ => decide
  have := C79_model_text e e' (names s v e h) (names s' v' e' h') ht
  have hx := C31_error_exact s v e h
  have hx' := C31_error_exact s' v' e' h'
  rw [hx, hx'] at this
  injection this with h1 h2 h3
  exact ⟨by rw [hx, hx', h1, h2, h3], h1, h3⟩

example : (ModelError.conversionError "i64" "i8" "Number value is out of target bounds").display =
    "Error converting from i64 to i8: Number value is out of target bounds" := by decide
example : NamesKinds (.conversionError "i64" "i8" "x") := ⟨by decide, by decide⟩
/-- Without the names being names, texts do coincide. -/
example : (ModelError.conversionError "a" "b to c" "w").display = (ModelError.conversionError "a to b" "c" "w").display := by decide

/-- **C79** at work: errors that differ in one part have different texts, at each level. -/
example : (ModelError.conversionError "i64" "i8" "w").display ≠ (ModelError.conversionError "i64" "u8" "w").display := fun h =>
  absurd (C79_model_text (.conversionError "i64" "i8" "w") (.conversionError "i64" "u8" "w") ⟨by decide, by decide⟩ ⟨by decide, by decide⟩ h) (by decide)
example : (ConfigLayerError.parseError "m").display ≠ (ConfigLayerError.serializeError "m").display := fun h =>
  absurd (C79_layer_text _ _ h) (by decide)
example : (FileFinderError.noFilesFound).display ≠ (FileFinderError.noFoldersDefined).display := fun h =>
  absurd (C79_finder_text _ _ h) (by decide)
example (io : IoError → String) (user : Nat → String) :
    (BakuninError.configLayerError (.parseError "m")).display io user ≠ (BakuninError.ioError .invalidData).display io user := fun h =>
  absurd ((C79_text io user _ _ (by simp) (by simp) (by simp) (by simp)).1 h) (by simp [SameError])

end Verif.Props
