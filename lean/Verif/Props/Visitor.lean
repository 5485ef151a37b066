import Verif.Spec.Visitor
import Verif.Props.Buffer
/-!
# The deserializer for any visitor (C92)
-/
namespace Verif.Props
open Spec

/-! ## Which call -/

/-- **C92**, which call: `deserialize_any` and `deserialize_ignored_any` show the value as it is; the scalar methods convert as `try_into` does and show
the result, or fail with its error; `deserialize_option` shows null as `None` and everything else as `Some`; newtype structs are transparent; lists, maps and
nulls are shown to those who want them, everything else is rejected with an error that names the value; bytes and enums panic. -/
theorem C92_which :
    (∀ v c, Shown v c → Calls .any v c ∧ Calls .ignoredAny v c) ∧
    (∀ m s f, Converts m s f → ∀ v, (∀ x, v.tryInto s = .ok x → Calls m v (f x)) ∧ (∀ e, v.tryInto s = .error e → Rejects m v e)) ∧
    (∀ v, Rejects (.int .i128) v (.deserializationError "i128 is not supported") ∧ Rejects (.int .u128) v (.deserializationError "u128 is not supported")) ∧
    Calls .option .none .none ∧ (∀ v, v ≠ .none → Calls .option v (.some v)) ∧
    (∀ name v, Calls (.newtypeStruct name) v (.newtype v)) ∧
    (∀ m, WantsList m → (∀ xs, Calls m (.array xs) (.seq xs)) ∧
      ∀ v, (∀ xs, v ≠ .array xs) → Rejects m v (.deserializationError ("Can't deserialize " ++ v.display ++ " to " ++ "Array"))) ∧
    (∀ m, WantsMap m → (∀ es, Calls m (.map es) (.map es)) ∧
      ∀ v, (∀ es, v ≠ .map es) → Rejects m v (.deserializationError ("Can't deserialize " ++ v.display ++ " to " ++ "Map"))) ∧
    (∀ m, WantsNone m → Calls m .none .unit ∧ ∀ v, v ≠ .none → Rejects m v (.deserializationError ("Can't deserialize " ++ v.display ++ " to " ++ "None"))) ∧
    (∀ m, Unimplemented m → ∀ v, Panics m v) := by
  refine ⟨?_, ?_, ?_, ?_, ?_, ?_, ?_, ?_, ?_, ?_⟩
  · intro v c h
    cases h <;> exact ⟨fun _ _ => rfl, fun _ _ => rfl⟩
  · intro m s f h v
    cases h with
    | int t ht =>
      have e : ∀ (α : Type) (vis : Visitor α), (Method.int t).on vis v = Outcome.ofExcept (v.tryInto (.int t)) >>= vis.int t := by
        intro α vis
        show deserializeInt vis v t = _
        cases t <;> first | exact absurd rfl ht.1 | exact absurd rfl ht.2 | rfl
      constructor
      · intro x hx α vis; rw [e, hx]; rfl
      · intro er hx α vis; rw [e, hx]; rfl
    | bool =>
      constructor
      · intro x hx α vis; show deserializeBool vis v = _; rw [deserializeBool, hx]; rfl
      · intro x hx α vis; show deserializeBool vis v = _; rw [deserializeBool, hx]; rfl
    | f32 =>
      constructor
      · intro x hx α vis; show deserializeF32 vis v = _; rw [deserializeF32, hx]; rfl
      · intro x hx α vis; show deserializeF32 vis v = _; rw [deserializeF32, hx]; rfl
    | f64 =>
      constructor
      · intro x hx α vis; show deserializeF64 vis v = _; rw [deserializeF64, hx]; rfl
      · intro x hx α vis; show deserializeF64 vis v = _; rw [deserializeF64, hx]; rfl
    | char =>
      constructor
      · intro x hx α vis; show deserializeChar vis v = _; rw [deserializeChar, hx]; rfl
      · intro x hx α vis; show deserializeChar vis v = _; rw [deserializeChar, hx]; rfl
    | str =>
      constructor
      · intro x hx α vis; show deserializeStr vis v = _; rw [deserializeStr, hx]; rfl
      · intro x hx α vis; show deserializeStr vis v = _; rw [deserializeStr, hx]; rfl
    | string =>
      constructor
      · intro x hx α vis; show deserializeString vis v = _; rw [deserializeString, hx]; rfl
      · intro x hx α vis; show deserializeString vis v = _; rw [deserializeString, hx]; rfl
    | identifier =>
      constructor
      · intro x hx α vis; show deserializeStr vis v = _; rw [deserializeStr, hx]; rfl
      · intro x hx α vis; show deserializeStr vis v = _; rw [deserializeStr, hx]; rfl
  · intro v; exact ⟨fun _ _ => rfl, fun _ _ => rfl⟩
  · intro _ _; rfl
  · intro v h α vis
    cases v <;> first | exact absurd rfl h | rfl
  · intro name v α vis; rfl
  · intro m h
    cases h <;> refine ⟨fun xs α vis => rfl, fun v hv α vis => ?_⟩ <;> cases v <;> first | exact absurd rfl (hv _) | rfl
  · intro m h
    cases h <;> refine ⟨fun xs α vis => rfl, fun v hv α vis => ?_⟩ <;> cases v <;> first | exact absurd rfl (hv _) | rfl
  · intro m h
    cases h <;> refine ⟨fun α vis => rfl, fun v hv α vis => ?_⟩ <;> cases v <;> first | exact absurd rfl hv | rfl
  · intro m h v α vis
    cases h <;> rfl

theorem one_call (m : Method) (v : Value) : (∃ c, Calls m v c) ∨ (∃ e, Rejects m v e) ∨ Unimplemented m := by
  obtain ⟨hany, hconv, h128, hon, hos, hnt, hlist, hmap, hnone, -⟩ := C92_which
  have shown : ∃ c, Shown v c := by cases v <;> exact ⟨_, by constructor⟩
  have conv : ∀ m s f, Converts m s f → (∃ c, Calls m v c) ∨ (∃ e, Rejects m v e) ∨ Unimplemented m := by
    intro m s f h
    cases hx : v.tryInto s with
    | ok x => exact .inl ⟨_, (hconv m s f h v).1 x hx⟩
    | error e => exact .inr (.inl ⟨_, (hconv m s f h v).2 e hx⟩)
  have list : ∀ m, WantsList m → (∃ c, Calls m v c) ∨ (∃ e, Rejects m v e) ∨ Unimplemented m := by
    intro m h
    by_cases hv : ∃ xs, v = .array xs
    · obtain ⟨xs, rfl⟩ := hv; exact .inl ⟨_, (hlist m h).1 xs⟩
    · exact .inr (.inl ⟨_, (hlist m h).2 v fun xs e => hv ⟨xs, e⟩⟩)
  have map : ∀ m, WantsMap m → (∃ c, Calls m v c) ∨ (∃ e, Rejects m v e) ∨ Unimplemented m := by
    intro m h
    by_cases hv : ∃ xs, v = .map xs
    · obtain ⟨xs, rfl⟩ := hv; exact .inl ⟨_, (hmap m h).1 xs⟩
    · exact .inr (.inl ⟨_, (hmap m h).2 v fun xs e => hv ⟨xs, e⟩⟩)
  have none : ∀ m, WantsNone m → (∃ c, Calls m v c) ∨ (∃ e, Rejects m v e) ∨ Unimplemented m := by
    intro m h
    by_cases hv : v = .none
    · subst hv; exact .inl ⟨_, (hnone m h).1⟩
    · exact .inr (.inl ⟨_, (hnone m h).2 v hv⟩)
  obtain ⟨c, hc⟩ := shown
  cases m with
  | any => exact .inl ⟨c, (hany v c hc).1⟩
  | ignoredAny => exact .inl ⟨c, (hany v c hc).2⟩
  | bool => exact conv _ _ _ .bool
  | int t =>
    by_cases h1 : t = .i128
    · subst h1; exact .inr (.inl ⟨_, (h128 v).1⟩)
    · by_cases h2 : t = .u128
      · subst h2; exact .inr (.inl ⟨_, (h128 v).2⟩)
      · exact conv _ _ _ (.int t ⟨h1, h2⟩)
  | f32 => exact conv _ _ _ .f32
  | f64 => exact conv _ _ _ .f64
  | char => exact conv _ _ _ .char
  | str => exact conv _ _ _ .str
  | string => exact conv _ _ _ .string
  | identifier => exact conv _ _ _ .identifier
  | bytes => exact .inr (.inr .bytes)
  | byteBuf => exact .inr (.inr .byteBuf)
  | enum n vs => exact .inr (.inr (.enum n vs))
  | option =>
    by_cases hv : v = .none
    · subst hv; exact .inl ⟨_, hon⟩
    · exact .inl ⟨_, hos v hv⟩
  | unit => exact none _ .unit
  | unitStruct n => exact none _ (.unitStruct n)
  | newtypeStruct n => exact .inl ⟨_, hnt n v⟩
  | seq => exact list _ .seq
  | tuple n => exact list _ (.tuple n)
  | tupleStruct n l => exact list _ (.tupleStruct n l)
  | map => exact map _ .map
  | struct n fs => exact map _ (.struct n fs)

/-- **C92**, one call: whatever the method and the value, the deserializer either calls the visitor exactly once and returns what it returns, or fails, or
panics, and which of these, with which arguments or error, does not depend on the visitor. -/
theorem C92_one_call (m : Method) (v : Value) : (∃ c, Calls m v c) ∨ (∃ e, Rejects m v e) ∨ Panics m v := by
  rcases one_call m v with h | h | h
  · exact .inl h
  · exact .inr (.inl h)
  · exact .inr (.inr (C92_which.2.2.2.2.2.2.2.2.2 m h v))

/-- A visitor that says yes to everything. -/
def yesVisitor : Visitor Unit :=
  ⟨"anything", fun _ => .ok (), fun _ _ => .ok (), fun _ => .ok (), fun _ => .ok (), fun _ => .ok (), fun _ => .ok (), fun _ => .ok (), .ok (), .ok (),
    fun _ => .ok (), fun _ => .ok (), fun _ => .ok (), fun _ => .ok ()⟩

/-- **C92**, panics: the deserializer itself panics exactly in the methods for bytes and enums, whatever the value; with a visitor that never panics,
no other method does. -/
theorem C92_panics (m : Method) (v : Value) :
    (Panics m v ↔ Unimplemented m) ∧
    ∀ (α : Type) (vis : Visitor α), (∀ c, reply vis c ≠ .panic) → (m.on vis v = .panic ↔ Unimplemented m) := by
  obtain ⟨-, -, -, -, -, -, -, -, -, hun⟩ := C92_which
  have key : ∀ (α : Type) (vis : Visitor α), (∀ c, reply vis c ≠ .panic) → ¬ Unimplemented m → m.on vis v ≠ .panic := by
    intro α vis hvis hm hp
    rcases one_call m v with ⟨c, hc⟩ | ⟨e, he⟩ | h
    · rw [hc] at hp; exact hvis c hp
    · rw [he] at hp; cases hp
    · exact hm h
  refine ⟨⟨fun h => ?_, fun h => hun m h v⟩, fun α vis hvis => ⟨fun h => ?_, fun h => hun m h v α vis⟩⟩
  · by_contra hm
    exact key Unit yesVisitor (by intro c; cases c <;> intro h <;> cases h) hm (h Unit yesVisitor)
  · by_contra hm
    exact key α vis hvis hm h

/-- **C92**, hints: the names, lengths, field and variant lists that a type announces make no difference. -/
theorem C92_hints {α : Type} (vis : Visitor α) (v : Value) :
    (∀ n, (Method.tuple n).on vis v = Method.seq.on vis v) ∧ (∀ s n, (Method.tupleStruct s n).on vis v = Method.seq.on vis v) ∧
    (∀ s fs, (Method.struct s fs).on vis v = Method.map.on vis v) ∧ (∀ s, (Method.unitStruct s).on vis v = Method.unit.on vis v) ∧
    (∀ s s', (Method.newtypeStruct s).on vis v = (Method.newtypeStruct s').on vis v) ∧
    (∀ s vs s' vs', (Method.enum s vs).on vis v = (Method.enum s' vs').on vis v) :=
  ⟨fun _ => rfl, fun _ _ => rfl, fun _ _ => rfl, fun _ => rfl, fun _ _ => rfl, fun _ _ _ _ => rfl⟩

/-- A visitor that keeps what it is shown. -/
def keepVisitor : Visitor (Option Value) :=
  { Visitor.refusing "anything" fun s => .ok (some (.string s)) with
    bool := fun b => .ok (some (.boolean b))
    int := fun t => match t with
      | .i64 => fun n => .ok (some (.integer n))
      | .i128 => fun n => .ok (some (.longInteger n))
      | .u64 => fun n => .ok (some (.uInteger n))
      | .u128 => fun n => .ok (some (.uLongInteger n))
      | _ => fun _ => .ok none
    f64 := fun x => .ok (some (.float x))
    unit := .ok (some .none)
    seq := fun xs => .ok (some (.array xs))
    map := fun m => .ok (some (.map m)) }

/-- **C92**, nothing is hidden: what `deserialize_any` shows determines the value. -/
theorem C92_faithful (v w : Value) (c : Call) (hv : Calls .any v c) (hw : Calls .any w c) : v = w := by
  have key : ∀ x : Value, Method.any.on keepVisitor x = .ok (some x) := by intro x; cases x <;> rfl
  have := (key v).symm.trans ((hv _ keepVisitor).trans ((hw _ keepVisitor).symm.trans (key w)))
  simpa using this

/-! ## The types of the model are visitors -/

/-- **C92**, types: reading a type from a value is the method that its `Deserialize` implementation calls, with its visitor. -/
theorem C92_types (refs : Nat → Decoder) (ty : Ty) (h : ∀ n, ty ≠ .ref n) (v : Value) : de refs ty v = ty.method.on (ty.visitor refs) v := by
  cases ty with
  | ref n => exact absurd rfl (h n)
  | int t =>
    show (deInt t v >>= fun n => (Outcome.ok (Data.int t n) : Outcome ModelError Data)) = deserializeInt (intVisitor t) v t
    have key : ∀ n : IntOf t, t ≠ .i128 → t ≠ .u128 → (intVisitor t).int t n = .ok (.int t n) := by
      intro n h1 h2
      simp only [intVisitor, h1, h2, or_self, false_and, if_false, tryFrom_self]
    have conv : t ≠ .i128 → t ≠ .u128 → (Outcome.ofExcept (v.tryInto (.int t)) >>= fun n => (Outcome.ok (Data.int t n) : Outcome ModelError Data)) =
        (Outcome.ofExcept (v.tryInto (.int t)) >>= (intVisitor t).int t) := by
      intro h1 h2
      cases v.tryInto (.int t) with
      | ok n => exact (key n h1 h2).symm
      | error e => rfl
    cases t <;> first | rfl | exact conv (by decide) (by decide)
  | value => cases v <;> rfl
  | option t => cases v <;> rfl
  | unit => cases v <;> rfl
  | unitStruct => cases v <;> rfl
  | seq t => cases v <;> rfl
  | tuple ts => cases v <;> rfl
  | tupleStruct ts => cases v <;> rfl
  | map k t => cases v <;> rfl
  | struct fs => cases v <;> rfl
  | _ => rfl

/-- **C92**, `Value` and `IgnoredAny`: `Value` reads itself with its own visitor through `deserialize_any`, unknown fields are skipped through
`deserialize_ignored_any`. -/
theorem C92_self (v : Value) : deValue v = Method.any.on valueVisitor v ∧ deIgnored v = Method.ignoredAny.on ignoredVisitor v := by
  constructor <;> cases v <;> rfl

/-- **C92**, the buffer: the readers of C91 are, directly and from serde's buffer, the same visitors. -/
theorem C92_buffer (owned : Bool) (v : Value) (r : Reader) :
    (Reader.bool.direct v = Method.bool.on boolVisitor v ∧ Reader.bool.buffered owned v = contentBool boolVisitor v) ∧
    (∀ t, (Reader.int t).direct v = (Method.int t).on (intVisitor t) v ∧ (Reader.int t).buffered owned v = contentInt (intVisitor t) v t) ∧
    (Reader.f32.direct v = Method.f32.on f32Visitor v ∧ Reader.f32.buffered owned v = contentFloat f32Visitor v) ∧
    (Reader.f64.direct v = Method.f64.on f64Visitor v ∧ Reader.f64.buffered owned v = contentFloat f64Visitor v) ∧
    (Reader.char.direct v = Method.char.on charVisitor v ∧ Reader.char.buffered owned v = contentString charVisitor v owned) ∧
    (Reader.string.direct v = Method.string.on stringVisitor v ∧ Reader.string.buffered owned v = contentString stringVisitor v owned) ∧
    (Reader.unit.direct v = Method.unit.on (unitVisitor .unit) v ∧ Reader.unit.buffered owned v = contentUnit (unitVisitor .unit) v owned) ∧
    (r.option.direct v = Method.option.on (optionVisitor r.direct) v ∧ r.option.buffered owned v = contentOption (optionVisitor (r.buffered owned)) v) ∧
    (∀ s, r.newtype.direct v = (Method.newtypeStruct s).on (newtypeVisitor r.direct) v ∧
      r.newtype.buffered owned v = contentNewtype (newtypeVisitor (r.buffered owned)) v) ∧
    (r.vec.direct v = Method.seq.on (vecVisitor r.direct) v ∧ r.vec.buffered owned v = contentSeq (vecVisitor (r.buffered owned)) v) ∧
    (r.map.direct v = Method.map.on (mapVisitor .string r.direct) v ∧ r.map.buffered owned v = contentMap (mapVisitor .string (r.buffered owned)) v) := by
  refine ⟨⟨rfl, ?_⟩, fun t => ⟨?_, ?_⟩, ⟨rfl, ?_⟩, ⟨rfl, ?_⟩, ⟨rfl, ?_⟩, ⟨rfl, ?_⟩, ⟨?_, ?_⟩, ⟨?_, ?_⟩, fun s => ⟨rfl, rfl⟩, ⟨?_, ?_⟩, ⟨?_, ?_⟩⟩
  · cases v <;> rfl
  · exact C92_types (fun _ _ => .panic) (.int t) (by intro n h; cases h) v
  · cases t <;> cases v <;> rfl
  · cases v <;> rfl
  · cases v <;> rfl
  · cases v <;> first | rfl | (cases owned <;> rfl)
  · cases v <;> first | rfl | (cases owned <;> rfl)
  · cases v <;> rfl
  · cases v <;> first | rfl | (rename_i m; cases m <;> first | rfl | (cases owned <;> rfl))
  · cases v <;> rfl
  · cases v <;> rfl
  · cases v <;> rfl
  · cases v <;> rfl
  · cases v <;> rfl
  · cases v <;> rfl

/-! ### Examples -/

/-- `C92_which` on a text: a number for those who ask for one, the text as it is for `deserialize_any`. -/
example : Calls (.int .u8) (.string "42") (.int .u8 ⟨42, by decide⟩) ∧ Calls .any (.string "42") (.str "42") ∧ Calls .option (.string "42") (.some (.string "42")) :=
  ⟨fun _ _ => rfl, fun _ _ => rfl, fun _ _ => rfl⟩
example : ∃ e, Rejects (.int .u8) (.string "256") e := ⟨_, fun _ _ => rfl⟩
/-- A visitor that never panics, as `C92_panics` asks for. -/
example : ∀ c, reply yesVisitor c ≠ .panic := by intro c; cases c <;> intro h <;> cases h
example : Converts .identifier .string .str ∧ Unimplemented (.enum "Mode" ["A"]) ∧ WantsMap (.struct "S" ["a"]) := ⟨.identifier, .enum _ _, .struct _ _⟩

/-- From the theorem: a struct asked of a list is rejected, an enum asked of anything panics. -/
example : Rejects (.struct "S" ["a"]) (.array []) (.deserializationError ("Can't deserialize " ++ Value.display (.array []) ++ " to " ++ "Map")) ∧
    Panics (.enum "Mode" ["A"]) (.string "A") :=
  ⟨(C92_which.2.2.2.2.2.2.2.1 _ (.struct "S" ["a"])).2 (.array []) (by simp), C92_which.2.2.2.2.2.2.2.2.2 _ (.enum "Mode" ["A"]) (.string "A")⟩
/-- What shows as the text `42` is the text `42`. -/
example (w : Value) (h : Calls .any w (.str "42")) : w = .string "42" := (C92_faithful (.string "42") w (.str "42") (fun _ _ => rfl) h).symm
example (refs : Nat → Decoder) (v : Value) : de refs (.option (.seq .bool)) v = (Ty.option (.seq .bool)).method.on (Ty.visitor refs (.option (.seq .bool))) v :=
  C92_types refs (.option (.seq .bool)) (by simp) v

end Verif.Props
