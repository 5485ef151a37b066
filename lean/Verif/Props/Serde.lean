import Verif.Lemmas.SerdeOrder
/-!
# C35–C44: serde

`structs` gives the fields of a family of (possibly mutually recursive) structs; `k` is how many nested entries
into such structs the stack can hold. `UniqueKeys` is what Rust's `HashMap` guarantees.
-/
namespace Verif.Props
open Spec

/-! ## C35, C36: a `Value` through its own serde implementations -/

/-- **C35.** `v.deserialize::<Value>()` is `Ok` of a value indistinguishable from `v`. -/
theorem C35_deserialize_value (structs : Nat → List (String × Ty)) (k : Nat) (v : Value) (hv : UniqueKeys v) :
    ∃ w, deAt structs k .value v = .ok w.toData ∧ Same w v ∧ UniqueKeys w := by
  refine ⟨v, ?_, fun _ => rfl, hv⟩
  rw [deAt, de, deValue_ok v hv]; rfl

example : UniqueKeys (.map [("a", .longInteger ⟨2 ^ 70, by decide⟩), ("b", .array [.map [("a", .none)]])]) := by
  simp [UniqueKeys, UniqueKeysMap, UniqueKeysEntry, UniqueKeysList]

theorem no128_iff (v : Value) : No128 v ↔ ¬ Holds128 v := by
  constructor
  · rintro h ⟨p, ⟨n, hn⟩ | ⟨n, hn⟩⟩
    · exact (h p).1 n hn
    · exact (h p).2 n hn
  · intro h p
    exact ⟨fun n hn => h ⟨p, Or.inl ⟨n, hn⟩⟩, fun n hn => h ⟨p, Or.inr ⟨n, hn⟩⟩⟩

/-- **C36.** `Value::serialize(v)` is `Ok` of a value indistinguishable from `v` if no 128-bit integer sits in `v`
at any depth, and a `SerializationError` otherwise. -/
theorem C36_serialize_value (v : Value) (hv : UniqueKeys v) :
    (¬ Holds128 v → ∃ w, v.serializeValue = .ok w ∧ Same w v ∧ UniqueKeys w) ∧
    (Holds128 v → ∃ msg, v.serializeValue = .err (.serializationError msg)) := by
  rw [← not_not (a := Holds128 v), ← no128_iff, not_not]
  rcases serializeValue_cases v hv with ⟨h1, h2⟩ | ⟨h1, h2⟩
  · exact ⟨fun _ => ⟨v, h2, fun _ => rfl, hv⟩, fun h => absurd h1 h⟩
  · exact ⟨fun h => absurd h h1, fun _ => h2⟩

example : Holds128 (.map [("a", .array [.none, .uLongInteger ⟨3, by decide⟩])]) :=
  ⟨[.key "a", .idx 1], Or.inr ⟨⟨3, by decide⟩, rfl⟩⟩

/-! ## C41, C42, C43: serialization -/

/-- **C41.** Serialization never panics. -/
theorem C41_never_panics (d : Data) : ser d ≠ .panic := ser_noPanic d

/-- **C41.** It succeeds exactly on data without 128-bit integers and with scalar map keys. -/
theorem C41_succeeds_iff (d : Data) : (∃ v, ser d = .ok v) ↔ Serializable d := ser_ok_iff d

/-- The values serialized from a list of data, in order. -/
def SerializedList (ds : List Data) (vs : List Value) : Prop :=
  vs.length = ds.length ∧ ∀ (i : Nat) d, ds[i]? = some d → ∃ x, ser d = .ok x ∧ vs[i]? = some x

theorem serializedList_of {ds : List Data} {vs : List Value} (h : List.Forall₂ (fun d x => ser d = .ok x) ds vs) :
    SerializedList ds vs := by
  obtain ⟨h1, h2⟩ := forall2_index h
  refine ⟨h1.symm, fun i d hd => ?_⟩
  obtain ⟨x, hx⟩ := get_of_lt (show i < vs.length by have := lt_of_get hd; omega)
  exact ⟨x, h2 i d x hd hx, hx⟩

/-- `v` is the map with exactly one entry per field, under the field's name, holding the serialized field. -/
def SerializedFields (fs : List (String × Data)) (v : Value) : Prop :=
  v.isMap = true ∧ v.len = fs.length ∧
  (∀ f ∈ fs, ∃ x, ser f.2 = .ok x ∧ child v (.key f.1) = some x) ∧
  (∀ k, child v (.key k) ≠ none → k ∈ fs.map Prod.fst)

theorem serializedFields_of {fs : List (String × Data)} (hn : (fs.map Prod.fst).Nodup) {kvs : Entries}
    (h : List.Forall₂ (fun f kv => kv.1 = f.1 ∧ ser f.2 = .ok kv.2) fs kvs) :
    SerializedFields fs (.map (insAll [] kvs)) := by
  have ek : kvs.map Prod.fst = fs.map Prod.fst := by
    clear hn
    induction h with
    | nil => rfl
    | cons h1 _ ih => simp only [List.map_cons, h1.1, ih]
  have hn2 : (kvs.map Prod.fst).Nodup := by rw [ek]; exact hn
  rw [insAll_fresh kvs [] (by simpa using hn2), List.nil_append]
  refine ⟨rfl, h.length_eq.symm, fun f hf => ?_, fun k hk => ?_⟩
  · obtain ⟨kv, hkv, h1, h2⟩ := forall2_left h f hf
    exact ⟨kv.2, h2, by rw [child_key_map, ← h1]; exact hmGet_of_mem hn2 hkv⟩
  · rw [child_key_map, ne_eq, hmGet_eq_none, not_not, ek] at hk
    exact hk

/-- **C41.** The layout. Sequences, tuples and tuple structs become arrays in order; structs become maps keyed by
field name; a unit variant becomes its name and every other variant a one-entry map from its name to its payload;
bytes become an array of the numbers; `None` and units become `None`; `Some` and newtypes vanish. -/
theorem C41_layout (name : String) (d : Data) (ds : List Data) (fs : List (String × Data)) (bs : List (IntOf .u8))
    (hn : (fs.map Prod.fst).Nodup) (v : Value) :
    (ser (.seq ds) = .ok v → ∃ vs, v = .array vs ∧ SerializedList ds vs) ∧
    (ser (.tuple ds) = .ok v → ∃ vs, v = .array vs ∧ SerializedList ds vs) ∧
    (ser (.tupleStruct ds) = .ok v → ∃ vs, v = .array vs ∧ SerializedList ds vs) ∧
    (ser (.struct fs) = .ok v → SerializedFields fs v) ∧
    (ser (.unitVariant name) = .ok (.string name)) ∧
    (ser (.newtypeVariant name d) = .ok v → ∃ x, v = .map [(name, x)] ∧ ser d = .ok x) ∧
    (ser (.tupleVariant name ds) = .ok v → ∃ vs, v = .map [(name, .array vs)] ∧ SerializedList ds vs) ∧
    (ser (.structVariant name fs) = .ok v → ∃ w, v = .map [(name, w)] ∧ SerializedFields fs w) ∧
    (∃ vs, ser (.bytes bs) = .ok (.array vs) ∧ vs.map integerOf = bs.map fun b => some (b.1, "u64")) ∧
    ser .none = .ok .none ∧ ser .unit = .ok .none ∧ ser .unitStruct = .ok .none ∧
    ser (.some d) = ser d ∧ ser (.newtypeStruct d) = ser d := by
  refine ⟨fun h => ?_, fun h => ?_, fun h => ?_, fun h => ?_, by rw [ser]; rfl, fun h => ?_, fun h => ?_, fun h => ?_,
    ?_, by rw [ser], by rw [ser], by rw [ser], by rw [ser], by rw [ser]⟩
  · obtain ⟨vs, h1, rfl⟩ := ser_seq.1 h; exact ⟨vs, rfl, serializedList_of h1⟩
  · obtain ⟨vs, h1, rfl⟩ := ser_tuple.1 h; exact ⟨vs, rfl, serializedList_of h1⟩
  · obtain ⟨vs, h1, rfl⟩ := ser_tupleStruct.1 h; exact ⟨vs, rfl, serializedList_of h1⟩
  · obtain ⟨kvs, h1, rfl⟩ := ser_struct.1 h; exact serializedFields_of hn h1
  · obtain ⟨x, h1, rfl⟩ := ser_newtypeVariant.1 h; exact ⟨x, rfl, h1⟩
  · obtain ⟨vs, h1, rfl⟩ := ser_tupleVariant.1 h; exact ⟨vs, rfl, serializedList_of h1⟩
  · obtain ⟨kvs, h1, rfl⟩ := ser_structVariant.1 h; exact ⟨_, rfl, serializedFields_of hn h1⟩
  · refine ⟨_, by rw [ser]; exact serBytes_ok bs [], ?_⟩
    simp [List.map_map, Function.comp_def, integerOf, widen]

/-- A struct variant holding a sequence: the layout is as stated. -/
example (v : Value) (h : ser (.structVariant "V" [("a", .seq [.int .u8 ⟨1, by decide⟩]), ("b", .some .unit)]) = .ok v) :
    ∃ w, v = .map [("V", w)] ∧ SerializedFields [("a", .seq [.int .u8 ⟨1, by decide⟩]), ("b", .some .unit)] w :=
  (C41_layout "V" .unit [] [("a", .seq [.int .u8 ⟨1, by decide⟩]), ("b", .some .unit)] [] (by decide) v).2.2.2.2.2.2.2.1 h

/-- **C41.** Scalars become the value that `Value::from` makes of them. -/
theorem C41_scalars (b : Bool) (t : IntTy) (n : IntOf t) (x : F32) (y : F64) (c : Char) (s : String) :
    ser (.bool b) = .ok (.boolean b) ∧
    (Upto64 t → ∃ w, ser (.int t n) = .ok w ∧ integerOf w = some (n.1, storedAs t)) ∧
    ser (.f32 x) = .ok (Value.ofF32 x) ∧ ser (.f64 y) = .ok (.float y) ∧
    ser (.char c) = .ok (.string (String.singleton c)) ∧ ser (.str s) = .ok (.string s) := by
  refine ⟨by rw [ser]; rfl, fun h => ?_, by rw [ser], by rw [ser]; rfl, by rw [ser]; rfl, by rw [ser]; rfl⟩
  exact ⟨_, ser_int h n, integerOf_stored t n⟩

example : ser (.structVariant "V" [("a", .seq [.int .u8 ⟨1, by decide⟩]), ("b", .some .unit)]) =
    .ok (.map [("V", .map [("a", .array [.uInteger ⟨1, by decide⟩]), ("b", .none)])]) := rfl

/-- **C42.** A map with keys of one bool, char, string or up-to-64-bit integer type: every key becomes its text,
no two entries clash, and `get(text of key)` shows that key's value. -/
theorem C42_map_keys (kt : KeyTy) (hg : GoodKey kt) (es : List (Key × Data)) (hk : ∀ e ∈ es, KeyHasType kt e.1)
    (hn : (es.map Prod.fst).Nodup) (v : Value) (hv : ser (.map (es.map fun e => (e.1.toData, e.2))) = .ok v) :
    v.isMap = true ∧ v.len = es.length ∧
    (∀ e ∈ es, ∃ x, ser e.2 = .ok x ∧ child v (.key (keyText e.1)) = some x ∧ v.get (keyText e.1) = x) ∧
    (∀ s, child v (.key s) ≠ none → ∃ e ∈ es, s = keyText e.1) := by
  obtain ⟨kvs, h1, h2, rfl⟩ := (ser_keyMap hg hk hn).1 hv
  refine ⟨rfl, h1.length_eq.symm, fun e he => ?_, fun s hs => ?_⟩
  · obtain ⟨kv, hkv, e1, e2⟩ := forall2_left h1 e he
    have := hmGet_of_mem h2 (show (kv.1, kv.2) ∈ kvs from hkv)
    rw [e1] at this
    exact ⟨kv.2, e2, by rw [child_key_map, this], by simp [Value.get, this]⟩
  · rw [child_key_map, ne_eq, hmGet_eq_none, not_not, List.mem_map] at hs
    obtain ⟨kv, hkv, rfl⟩ := hs
    obtain ⟨e, he, h3, _⟩ := forall2_right h1 kv hkv
    exact ⟨e, he, h3⟩

example : (∀ s, child (.map [("-5", .boolean true), ("12", .none)]) (.key s) ≠ none →
    ∃ e ∈ [(Key.int .i32 ⟨-5, by decide⟩, Data.bool true), (.int .i32 ⟨12, by decide⟩, .none)], s = keyText e.1) :=
  (C42_map_keys (.int .i32) ⟨by decide, by decide⟩
    [(.int .i32 ⟨-5, by decide⟩, .bool true), (.int .i32 ⟨12, by decide⟩, .none)]
    (by intro e he; simp only [List.mem_cons, List.not_mem_nil, or_false] at he; rcases he with rfl | rfl <;> exact ⟨_, rfl⟩)
    (by decide) _ (by rfl)).2.2.2

/-- **C42.** Distinct keys have distinct texts. -/
theorem C42_text_injective (kt : KeyTy) (hg : GoodKey kt) (a b : Key) (ha : KeyHasType kt a) (hb : KeyHasType kt b)
    (h : keyText a = keyText b) : a = b := keyText_inj hg ha hb h

example : ser (.map [(.int .i32 ⟨-5, by decide⟩, .bool true), (.int .i32 ⟨12, by decide⟩, .none)]) =
    .ok (.map [("-5", .boolean true), ("12", .none)]) := by rfl

/-- **C43.** 128-bit integers cannot be serialized, nor deserialized from any value. -/
theorem C43_no_128 (t : IntTy) (ht : t = .i128 ∨ t = .u128) :
    (∀ n : IntOf t, ∃ msg, ser (.int t n) = .err (.serializationError msg)) ∧
    (∀ structs k v, ∃ msg, deAt structs k (.int t) v = .err (.deserializationError msg)) := by
  rcases ht with rfl | rfl
  · exact ⟨fun n => ⟨_, by rw [ser]⟩, fun structs k v => ⟨_, by rw [deAt, de]; rfl⟩⟩
  · exact ⟨fun n => ⟨_, by rw [ser]⟩, fun structs k v => ⟨_, by rw [deAt, de]; rfl⟩⟩

example : (∃ msg, ser (.int .u128 ⟨1, by decide⟩) = .err (.serializationError msg)) ∧
    ∃ msg, deAt (fun _ => []) 1 (.int .u128) (.uLongInteger ⟨1, by decide⟩) = .err (.deserializationError msg) :=
  ⟨(C43_no_128 .u128 (Or.inr rfl)).1 _, (C43_no_128 .u128 (Or.inr rfl)).2 _ _ _⟩

/-- **C43.** … although the direct conversion works. -/
theorem C43_direct_conversion (t : IntTy) (v : Value) (n : Int) (src : String) (hv : integerOf v = some (n, src))
    (hr : InRange t n) : ∃ r, v.tryIntoInt t = .ok r ∧ r.1 = n := (C23_int_to_int t v n src hv).1 hr

/-- Beyond 64 bits, and into a small type. -/
example : (∃ r, (Value.longInteger ⟨-2 ^ 100, by decide⟩).tryIntoInt .i128 = .ok r ∧ r.1 = -2 ^ 100) ∧
    ∃ r, (Value.longInteger ⟨7, by decide⟩).tryIntoInt .u8 = .ok r ∧ r.1 = 7 :=
  ⟨C43_direct_conversion .i128 _ (-2 ^ 100) "i128" rfl (by norm_num [InRange, isSigned, width]),
   C43_direct_conversion .u8 _ 7 "i128" rfl (by norm_num [InRange, isSigned, width])⟩

/-! ## C37: typed round trip -/

theorem uniqueKeys_ser (d : Data) : ∀ v, ser d = .ok v → UniqueKeys v := by
  have arr : ∀ {ds : List Data} {vs : List Value}, (∀ d ∈ ds, ∀ v, ser d = .ok v → UniqueKeys v) →
      List.Forall₂ (fun d x => ser d = .ok x) ds vs → UniqueKeys (.array vs) := by
    intro ds vs ih h
    rw [uniqueKeys_array]
    intro v hv
    obtain ⟨d, hd, h1⟩ := forall2_right h v hv
    exact ih d hd v h1
  have flds : ∀ {fs : List (String × Data)} {kvs : Entries}, (∀ f ∈ fs, ∀ v, ser f.2 = .ok v → UniqueKeys v) →
      List.Forall₂ (fun f kv => kv.1 = f.1 ∧ ser f.2 = .ok kv.2) fs kvs → UniqueKeys (.map (insAll [] kvs)) := by
    intro fs kvs ih h
    rw [uniqueKeys_map]
    refine ⟨nodup_insAll kvs [] (by simp), fun e he => ?_⟩
    rcases mem_insAll kvs [] e he with h1 | h1
    · simp at h1
    · obtain ⟨f, hf, _, h2⟩ := forall2_right h e h1
      exact ih f hf _ h2
  have one : ∀ {k : String} {v : Value}, UniqueKeys v → UniqueKeys (.map [(k, v)]) := by
    intro k v h
    simpa [UniqueKeys, UniqueKeysMap, UniqueKeysEntry] using h
  induction d using Data.ind with
  | int t n => intro v h; cases t <;> simp only [ser, reduceCtorEq, Outcome.ok.injEq] at h <;> subst h <;> trivial
  | bytes bs =>
    intro v h
    rw [ser, show Value.newArray = .array [] from rfl, serBytes_ok] at h
    cases h
    rw [uniqueKeys_array]
    intro x hx
    simp only [List.nil_append, List.mem_map] at hx
    obtain ⟨b, _, rfl⟩ := hx
    trivial
  | some d ih => intro v h; rw [ser] at h; exact ih v h
  | newtypeStruct d ih => intro v h; rw [ser] at h; exact ih v h
  | newtypeVariant w d ih => intro v h; obtain ⟨x, h1, rfl⟩ := ser_newtypeVariant.1 h; exact one (ih x h1)
  | seq ds ih => intro v h; obtain ⟨vs, h1, rfl⟩ := ser_seq.1 h; exact arr ih h1
  | tuple ds ih => intro v h; obtain ⟨vs, h1, rfl⟩ := ser_tuple.1 h; exact arr ih h1
  | tupleStruct ds ih => intro v h; obtain ⟨vs, h1, rfl⟩ := ser_tupleStruct.1 h; exact arr ih h1
  | tupleVariant w ds ih => intro v h; obtain ⟨vs, h1, rfl⟩ := ser_tupleVariant.1 h; exact one (arr ih h1)
  | struct fs ih => intro v h; obtain ⟨kvs, h1, rfl⟩ := ser_struct.1 h; exact flds ih h1
  | structVariant w fs ih => intro v h; obtain ⟨kvs, h1, rfl⟩ := ser_structVariant.1 h; exact one (flds ih h1)
  | map es ih =>
    intro v h
    obtain ⟨kvs, h1, rfl⟩ := ser_map.1 h
    rw [uniqueKeys_map]
    refine ⟨nodup_insAll kvs [] (by simp), fun e he => ?_⟩
    rcases mem_insAll kvs [] e he with h2 | h2
    · simp at h2
    · obtain ⟨f, hf, _, h3⟩ := forall2_right h1 e h2
      exact (ih f hf).2 _ h3
  | _ => intro v h; rw [ser] at h; cases h; trivial

theorem has128_child {d x : Data} {s : DStep} (hc : dchild d s = some x) (h : Has128 x) : Has128 d := by
  obtain ⟨p, h⟩ := h
  exact ⟨s :: p, by simpa only [dview, hc, Option.bind_some] using h⟩

theorem has128_toData {v : Value} (h : Holds128 v) : Has128 v.toData := by
  obtain ⟨p, h⟩ := h
  induction p generalizing v with
  | nil =>
    refine ⟨[], ?_⟩
    rcases h with ⟨n, h⟩ | ⟨n, h⟩
    · left
      cases v <;> simp [view, head] at h
      exact ⟨_, rfl⟩
    · right
      cases v <;> simp [view, head] at h
      exact ⟨_, rfl⟩
  | cons s p ih =>
    rw [view] at h
    cases hc : child v s with
    | none => rw [hc] at h; simp at h
    | some x =>
      rw [hc] at h
      have h1 := ih (v := x) h
      cases v with
      | array xs =>
        cases s with
        | idx i =>
          have hi : xs[i]? = some x := hc
          refine has128_child (s := .idx i) ?_ h1
          rw [Value.toData, toDataList_eq]
          simp [dchild, hi]
        | key k => cases hc
      | map m =>
        cases s with
        | key k =>
          rw [child_key_map] at hc
          refine has128_child (s := .key (.str k)) ?_ h1
          rw [Value.toData, toDataEntries_keys, dchild_key, keyGet_str]
          simp [hc]
        | idx i => cases hc
      | _ => cases s <;> cases hc

theorem serializable_of_type {structs : Nat → List (String × Ty)} (hs : ∀ n, Survives (.struct (structs n))) {t : Ty}
    {d : Data} (ht : HasType structs t d) : Survives t → ¬ Has128 d → Serializable d := by
  induction ht with
  | bool b => intro _ _; exact .bool b
  | int t n => intro h _; cases h with | int h => exact .int n h
  | f32 x => intro _ _; exact .f32 x
  | f64 x => intro _ _; exact .f64 x
  | char x => intro _ _; exact .char x
  | string x => intro _ _; exact .str x
  | unit => intro _ _; exact .unit
  | unitStruct => intro _ _; exact .unitStruct
  | bytes bs => intro _ _; exact .bytes bs
  | value v hv =>
    intro _ h
    rw [← ser_ok_iff]
    obtain ⟨w, h1, _⟩ := (C36_serialize_value v hv).1 (fun h' => h (has128_toData h'))
    exact ⟨w, h1⟩
  | none t => intro _ _; exact .none
  | some _ ih =>
    intro h h1
    cases h with | option h _ => exact .some (ih h fun h' => h1 (has128_child (s := .inner) rfl h'))
  | newtype _ ih =>
    intro h h1
    cases h with | newtype h => exact .newtypeStruct (ih h fun h' => h1 (has128_child (s := .inner) rfl h'))
  | seq _ ih =>
    intro h h1
    cases h with
    | seq h =>
      refine .seq fun d hd => ih d hd h fun h' => ?_
      obtain ⟨i, hi⟩ := List.mem_iff_getElem?.1 hd
      exact h1 (has128_child (s := .idx i) hi h')
  | tuple hl _ ih =>
    intro h h1
    cases h with
    | tuple h =>
      refine .tuple fun d hd => ?_
      obtain ⟨i, hi⟩ := List.mem_iff_getElem?.1 hd
      obtain ⟨t, ht⟩ := get_of_lt (show i < _ by rw [← hl]; exact lt_of_get hi)
      exact ih i t d ht hi (h t (List.mem_of_getElem? ht)) fun h' => h1 (has128_child (s := .idx i) hi h')
  | tupleStruct hl _ ih =>
    intro h h1
    cases h with
    | tupleStruct h =>
      refine .tupleStruct fun d hd => ?_
      obtain ⟨i, hi⟩ := List.mem_iff_getElem?.1 hd
      obtain ⟨t, ht⟩ := get_of_lt (show i < _ by rw [← hl]; exact lt_of_get hi)
      exact ih i t d ht hi (h t (List.mem_of_getElem? ht)) fun h' => h1 (has128_child (s := .idx i) hi h')
  | @map kt t es hk hn _ ih =>
    intro h h1
    cases h with
    | map hg h =>
      refine .map (fun e he => ?_) (fun e he => ?_) (fun e he => ?_) <;>
        obtain ⟨e, he', rfl⟩ := List.mem_map.1 he
      · cases hk' : e.1 <;> constructor
      · rw [← ser_ok_iff]
        obtain ⟨kx, h2, _⟩ := ser_keyText hg (hk e he')
        exact ⟨kx, h2⟩
      · refine ih e he' h fun h' => h1 (has128_child (s := .key e.1) ?_ h')
        rw [dchild_key]; exact keyGet_of_mem hn he'
  | @struct fs ds hl _ ih =>
    intro h h1
    cases h with
    | struct hn h =>
      refine .struct fun d hd => ?_
      obtain ⟨i, hi⟩ := List.mem_iff_getElem?.1 hd
      have l0 : ds.length = fs.length := by simpa using congrArg List.length hl
      obtain ⟨f, hf⟩ := get_of_lt (show i < fs.length by rw [← l0]; exact lt_of_get hi)
      refine ih i f d hf hi (h f (List.mem_of_getElem? hf)) fun h' => h1 (has128_child (s := .field d.1) ?_ h')
      rw [← hl] at hn
      simp only [dchild]
      have key : ∀ ds : List (String × Data), d ∈ ds → (ds.map Prod.fst).Nodup →
          Option.map Prod.snd (ds.find? fun f => f.1 == d.1) = some d.2 := by
        intro ds hd hn
        induction ds with
        | nil => simp at hd
        | cons e r ih =>
          simp only [List.map_cons, List.nodup_cons] at hn
          rcases List.mem_cons.1 hd with rfl | hd
          · simp
          · have : e.1 ≠ d.1 := fun he => hn.1 (by rw [he]; exact List.mem_map.2 ⟨d, hd, rfl⟩)
            rw [List.find?_cons, beq_eq_false_iff_ne.2 this]
            exact ih hd hn.2
      exact key ds hd hn
  | ref _ ih => intro _ h1; exact ih (hs _) h1

/-- **C37.** For every type of the family and every value of it (any `Value` inside being free of 128-bit
integers): serializing succeeds, and deserializing the result — stored in whatever order the hash maps choose —
gives the value back, provided the stack suffices for the nesting of recursive structs. -/
theorem C37_typed_roundtrip (structs : Nat → List (String × Ty)) (hs : ∀ n, Survives (.struct (structs n))) (T : Ty)
    (hT : Survives T) (d : Data) (hd : HasType structs T d) (h128 : ¬ Has128 d) :
    ∃ v, ser d = .ok v ∧ UniqueKeys v ∧ ∀ v', Same v v' → UniqueKeys v' →
      ∃ k0, ∀ k, k0 ≤ k → ∃ d', deAt structs k T v' = .ok d' ∧ DSame d d' := by
  obtain ⟨v, hv⟩ := (ser_ok_iff d).2 (serializable_of_type hs hd hT h128)
  exact ⟨v, hv, uniqueKeys_ser d v hv, back hs hd hT v hv⟩

/-- A recursive struct: a list of nested nodes under an optional field. -/
def exampleStructs : Nat → List (String × Ty) := fun _ => [("size", .int .u8), ("next", .option (.ref 0)),
  ("names", .map (.int .i32) (.tuple [.char, .newtype .f32]))]

theorem exampleStructs_survives : ∀ n, Survives (.struct (exampleStructs n)) := by
  intro n
  refine .struct (show ["size", "next", "names"].Nodup by decide) fun f hf => ?_
  simp only [exampleStructs, List.mem_cons, List.not_mem_nil, or_false] at hf
  rcases hf with rfl | rfl | rfl
  · exact .int ⟨by decide, by decide⟩
  · exact .option (.ref 0) rfl
  · refine .map ⟨by decide, by decide⟩ (.tuple fun t ht => ?_)
    simp only [List.mem_cons, List.not_mem_nil, or_false] at ht
    rcases ht with rfl | rfl
    · exact .char
    · exact .newtype .f32

example : HasType exampleStructs (.ref 0) (.struct [("size", .int .u8 ⟨1, by decide⟩), ("next", .none),
    ("names", .map [])]) := by
  refine .ref (.struct rfl fun i f d hf hd => ?_)
  match i with
  | 0 => cases hf; cases hd; exact .int _ _
  | 1 => cases hf; cases hd; exact .none _
  | 2 => cases hf; cases hd; exact .map (es := []) (by simp) (by simp) (by simp)
  | i + 3 => cases hf

/-- **C37.** Outside the family the round trip fails: `Some(None)` comes back as `None`, `Some(())` too. -/
theorem C37_nested_option_lost (structs : Nat → List (String × Ty)) (k : Nat) :
    (ser (.some .none) = .ok .none ∧ deAt structs k (.option (.option .bool)) .none = .ok .none) ∧
    (ser (.some .unit) = .ok .none ∧ deAt structs k (.option .unit) .none = .ok .none) ∧
    ¬ DSame .none (.some .none) := by
  refine ⟨⟨by rw [ser, ser], by rw [deAt, de]⟩, ⟨by rw [ser, ser], by rw [deAt, de]⟩, fun h => ?_⟩
  have := h []
  simp [dview, dhead] at this

/-! ## C38: panics -/

/-- **C38.** No panic for types without enums and byte buffers, whatever the value (the stack holding as many
nested structs as the value has levels). -/
theorem C38_no_panic (structs : Nat → List (String × Ty)) (hs : ∀ n, NoEnumNoBytes (.struct (structs n))) (T : Ty)
    (hT : NoEnumNoBytes T) (v : Value) (hv : UniqueKeys v) (k : Nat) (hk : DepthBelow v k) :
    deAt structs k T v ≠ .panic :=
  de_noPanic (refsAt_noPanic hs k) hT v hv hk

/-- Every value has a depth. -/
theorem C38_depth_exists (v : Value) (hv : UniqueKeys v) : ∃ k, DepthBelow v k := by
  have leaf : ∀ v : Value, (∀ s, child v s = none) → DepthBelow v 1 := by
    intro v h p hp
    cases p with
    | nil => simp
    | cons s p => simp [view, h s] at hp
  induction v using Value.ind with
  | array xs ih =>
    rw [uniqueKeys_array] at hv
    obtain ⟨k0, h0⟩ := ev_list (P := fun x k => DepthBelow x k) xs
      (fun x hx => by
        obtain ⟨k, hk⟩ := ih x hx (hv x hx)
        exact ⟨k, fun k' h => depth_mono hk h⟩)
    refine ⟨k0 + 1, fun p hp => ?_⟩
    cases p with
    | nil => simp
    | cons s p =>
      cases s with
      | key k => simp [view, child] at hp
      | idx i =>
        simp only [view, child] at hp
        cases hi : xs[i]? with
        | none => simp [hi] at hp
        | some x =>
          rw [hi] at hp
          have := h0 k0 le_rfl x (List.mem_of_getElem? hi) p hp
          simpa using this
  | map m ih =>
    rw [uniqueKeys_map] at hv
    obtain ⟨k0, h0⟩ := ev_list (P := fun e k => DepthBelow e.2 k) m
      (fun x hx => by
        obtain ⟨k, hk⟩ := ih x hx (hv.2 x hx)
        exact ⟨k, fun k' h => depth_mono hk h⟩)
    refine ⟨k0 + 1, fun p hp => ?_⟩
    cases p with
    | nil => simp
    | cons s p =>
      cases s with
      | idx k => simp [view, child] at hp
      | key i =>
        rw [view_key_map] at hp
        cases hi : hmGet m i with
        | none => simp [hi] at hp
        | some x =>
          rw [hi] at hp
          have := h0 k0 le_rfl _ (hmGet_mem hi) p hp
          simpa using this
  | _ => exact ⟨1, leaf _ (by intro s; cases s <;> rfl)⟩

/-- **C38.** Deserializing to an enum or a byte buffer always panics, whatever the value and even where the value
came from serializing one. -/
theorem C38_enum_bytes_panic (structs : Nat → List (String × Ty)) (k : Nat) (v : Value) (variant : String)
    (bs : List (IntOf .u8)) :
    deAt structs k .enum v = .panic ∧ deAt structs k .bytes v = .panic ∧
    (∃ w, ser (.unitVariant variant) = .ok w ∧ deAt structs k .enum w = .panic) ∧
    (∃ w, ser (.bytes bs) = .ok w ∧ deAt structs k .bytes w = .panic) := by
  have h1 : ∀ v, deAt structs k .enum v = .panic := fun v => by rw [deAt, de]
  have h2 : ∀ v, deAt structs k .bytes v = .panic := fun v => by rw [deAt, de]
  exact ⟨h1 v, h2 v, ⟨_, by rw [ser], h1 _⟩, ⟨_, by rw [ser]; exact serBytes_ok bs [], h2 _⟩⟩

theorem exampleStructs_noEnum : ∀ n, NoEnumNoBytes (.struct (exampleStructs n)) := by
  intro n
  refine .struct fun f hf => ?_
  simp only [exampleStructs, List.mem_cons, List.not_mem_nil, or_false] at hf
  rcases hf with rfl | rfl | rfl
  · exact .int _
  · exact .option (.ref 0)
  · refine .map (.tuple fun t ht => ?_)
    simp only [List.mem_cons, List.not_mem_nil, or_false] at ht
    rcases ht with rfl | rfl
    · exact .char
    · exact .newtype .f32

/-- **C38** at work: a recursive struct read from a value that does not fit it (a node whose `next` is an array, with a
stray key): some answer, no panic, whatever the budget beyond the depth. -/
example : ∃ k, deAt exampleStructs k (.ref 0)
    (.map [("size", .string "300"), ("next", .array [.none]), ("zzz", .map [])]) ≠ .panic := by
  have hu : UniqueKeys (.map [("size", .string "300"), ("next", .array [.none]), ("zzz", .map [])]) := by
    simp [UniqueKeys, UniqueKeysMap, UniqueKeysEntry, UniqueKeysList]
  obtain ⟨k, hk⟩ := C38_depth_exists _ hu
  exact ⟨k, C38_no_panic exampleStructs exampleStructs_noEnum (.ref 0) (.ref 0) _ hu k hk⟩

/-! ## C39, C40: structs and sequences -/

/-- **C39.** Deserializing a map to a struct succeeds exactly when every field that is present deserializes and
every absent one is an `Option`; the result has exactly the struct's fields, absent ones being `None`. -/
theorem C39_struct (structs : Nat → List (String × Ty)) (k : Nat) (fs : List (String × Ty))
    (hf : (fs.map Prod.fst).Nodup) (v : Value) (hv : UniqueKeys v) (hm : v.isMap = true) (d : Data) :
    deAt structs k (.struct fs) v = .ok d ↔
    ∃ ds : List (String × Data), d = .struct ds ∧ ds.map Prod.fst = fs.map Prod.fst ∧
      ∀ (i : Nat) f nd, fs[i]? = some f → ds[i]? = some nd →
        (∀ x, child v (.key f.1) = some x → deAt structs k f.2 x = .ok nd.2) ∧
        (child v (.key f.1) = none → (∃ t, f.2 = .option t) ∧ nd.2 = .none) := by
  cases v with
  | map m =>
    rw [deAt, de_struct_ok _ _ hf _ (uniqueKeys_map.1 hv).1]
    have miss : ∀ (n : String) (t : Ty) (x : Data), missingField n t = .ok x ↔ (∃ t', t = .option t') ∧ x = .none := by
      intro n t x
      cases t <;> simp [missingField, eq_comm]
    refine exists_congr fun ds => and_congr_right fun _ => ?_
    constructor
    · intro h
      obtain ⟨l, h1⟩ := forall2_index h
      refine ⟨?_, fun i f nd hfi hnd => ?_⟩
      · have key : ∀ {fs : List (String × Ty)} {ds : List (String × Data)} {R : String × Ty → String × Data → Prop},
            List.Forall₂ (fun f nd => nd.1 = f.1 ∧ R f nd) fs ds → ds.map Prod.fst = fs.map Prod.fst := by
          intro fs ds R h
          induction h with
          | nil => rfl
          | cons h1 _ ih => simp only [List.map_cons, h1.1, ih]
        exact key h
      · obtain ⟨_, e2⟩ := h1 i f nd hfi hnd
        rw [child_key_map]
        refine ⟨fun x hx => ?_, fun hx => ?_⟩
        · rw [hx] at e2; exact e2
        · rw [hx] at e2; exact (miss _ _ _).1 e2
    · rintro ⟨h1, h2⟩
      have l0 : ds.length = fs.length := by simpa using congrArg List.length h1
      refine forall2_of_index l0.symm fun i f nd hfi hnd => ?_
      obtain ⟨e1, e2⟩ := h2 i f nd hfi hnd
      rw [child_key_map] at e1 e2
      refine ⟨?_, ?_⟩
      · have := congrArg (fun l : List String => l[i]?) h1
        simpa [hfi, hnd] using this
      · cases hx : hmGet m f.1 with
        | none => exact (miss _ _ _).2 (e2 hx)
        | some x => exact e1 x hx
  | _ => cases hm

/-- A struct with an absent optional field and a stray key. -/
example (d : Data) (h : deAt (fun _ => []) 1 (.struct [("a", .int .u8), ("b", .option .string)])
    (.map [("zzz", .array [.none]), ("a", .string "7")]) = .ok d) :
    ∃ ds, d = .struct ds ∧ ds.map Prod.fst = ["a", "b"] := by
  obtain ⟨ds, h1, h2, -⟩ := (C39_struct (fun _ => []) 1 [("a", .int .u8), ("b", .option .string)] (by decide)
    (.map [("zzz", .array [.none]), ("a", .string "7")])
    (by simp [UniqueKeys, UniqueKeysMap, UniqueKeysEntry, UniqueKeysList]) rfl d).1 h
  exact ⟨ds, h1, h2⟩

/-- **C39.** Only the struct's own keys matter: two maps that agree on them deserialize alike. -/
theorem C39_own_keys (structs : Nat → List (String × Ty)) (k : Nat) (fs : List (String × Ty))
    (hf : (fs.map Prod.fst).Nodup) (v w : Value) (hv : UniqueKeys v) (hw : UniqueKeys w) (hm : v.isMap = true)
    (hm' : w.isMap = true) (h : ∀ f ∈ fs, child v (.key f.1) = child w (.key f.1)) (d : Data) :
    deAt structs k (.struct fs) v = .ok d ↔ deAt structs k (.struct fs) w = .ok d := by
  rw [C39_struct structs k fs hf v hv hm, C39_struct structs k fs hf w hw hm']
  refine exists_congr fun ds => and_congr_right fun _ => and_congr_right fun _ =>
    forall_congr' fun i => forall_congr' fun f => forall_congr' fun nd => ?_
  constructor
  · intro g hfi hnd
    rw [← h f (List.mem_of_getElem? hfi)]; exact g hfi hnd
  · intro g hfi hnd
    rw [h f (List.mem_of_getElem? hfi)]; exact g hfi hnd

example (d : Data) : deAt (fun _ => []) 1 (.struct [("a", .int .u8), ("b", .option .string)])
      (.map [("zzz", .array [.none]), ("a", .string "7")]) = .ok d ↔
    deAt (fun _ => []) 1 (.struct [("a", .int .u8), ("b", .option .string)])
      (.map [("a", .string "7"), ("other", .none)]) = .ok d :=
  C39_own_keys (fun _ => []) 1 [("a", .int .u8), ("b", .option .string)] (by decide) _ _
    (by simp [UniqueKeys, UniqueKeysMap, UniqueKeysEntry, UniqueKeysList])
    (by simp [UniqueKeys, UniqueKeysMap, UniqueKeysEntry]) rfl rfl
    (by intro f hf; simp only [List.mem_cons, List.not_mem_nil, or_false] at hf; rcases hf with rfl | rfl <;> rfl) d

/-- **C39.** A value that is no map never becomes a struct. -/
theorem C39_nonmap (structs : Nat → List (String × Ty)) (k : Nat) (fs : List (String × Ty)) (v : Value)
    (hm : v.isMap = false) :
    deAt structs k (.struct fs) v = .err (.deserializationError ("Can't deserialize " ++ v.display ++ " to Map")) := by
  cases v with
  | map m => cases hm
  | _ =>
    simp only [deAt, de, deStruct, cannot, Outcome.err.injEq, ModelError.deserializationError.injEq, String.append_assoc]
    rfl

example : deAt (fun _ => []) 1 (.struct [("a", .int .u8)]) (.boolean true) =
    .err (.deserializationError "Can't deserialize true to Map") :=
  C39_nonmap (fun _ => []) 1 [("a", .int .u8)] (.boolean true) rfl

/-- **C39.** An absent field that is no `Option` makes the deserialization fail. -/
theorem C39_missing_required (structs : Nat → List (String × Ty)) (k : Nat) (fs : List (String × Ty))
    (hf : (fs.map Prod.fst).Nodup) (v : Value) (hv : UniqueKeys v) (f : String × Ty) (hmem : f ∈ fs)
    (hno : ∀ t, f.2 ≠ .option t) (hx : child v (.key f.1) = none) (d : Data) :
    deAt structs k (.struct fs) v ≠ .ok d := by
  intro h
  cases hm : v.isMap with
  | false => rw [C39_nonmap structs k fs v hm] at h; cases h
  | true =>
    obtain ⟨ds, _, h1, h2⟩ := (C39_struct structs k fs hf v hv hm d).1 h
    obtain ⟨i, hi⟩ := List.mem_iff_getElem?.1 hmem
    have l0 : ds.length = fs.length := by simpa using congrArg List.length h1
    obtain ⟨nd, hnd⟩ := get_of_lt (show i < ds.length by rw [l0]; exact lt_of_get hi)
    obtain ⟨⟨t, ht⟩, _⟩ := (h2 i f nd hi hnd).2 hx
    exact hno t ht

example : deAt (fun _ => []) 1 (.struct [("a", .int .u8), ("b", .option .string)])
    (.map [("zzz", .array [.none]), ("a", .string "7")]) = .ok (.struct [("a", .int .u8 ⟨7, by decide⟩), ("b", .none)]) := by
  rfl

/-- **C40.** A `Vec` deserializes from an array element by element, with the same length and order, iff every
element does; a non-array never does. -/
theorem C40_vec (structs : Nat → List (String × Ty)) (k : Nat) (t : Ty) (xs : List Value) (d : Data) :
    (deAt structs k (.seq t) (.array xs) = .ok d ↔ ∃ ds, d = .seq ds ∧ ds.length = xs.length ∧
      ∀ (i : Nat) x y, xs[i]? = some x → ds[i]? = some y → deAt structs k t x = .ok y) ∧
    (∀ v : Value, v.isArray = false → deAt structs k (.seq t) v ≠ .ok d) := by
  refine ⟨de_seq_ok _ _ _ _, fun v hv h => ?_⟩
  cases v <;> first | (cases hv; done) | simp [deAt, de] at h

example : (∃ ds, Data.seq [.bool true, .bool false] = .seq ds ∧ ds.length = 2) ∧
    ∀ d, deAt (fun _ => []) 1 (.seq .bool) (.string "true") ≠ .ok d := by
  refine ⟨?_, fun d => (C40_vec (fun _ => []) 1 .bool [] d).2 _ rfl⟩
  obtain ⟨ds, h1, h2, -⟩ := (C40_vec (fun _ => []) 1 .bool [.string "TRUE", .uInteger ⟨0, by decide⟩]
    (.seq [.bool true, .bool false])).1.1 (by rfl)
  exact ⟨ds, h1, h2⟩

/-- **C40.** A tuple (array, tuple struct) of `n` fields succeeds iff the array has at least `n` elements and the
first `n` deserialize; surplus elements are dropped. -/
theorem C40_tuple (structs : Nat → List (String × Ty)) (k : Nat) (ts : List Ty) (xs : List Value) (d : Data) :
    (deAt structs k (.tuple ts) (.array xs) = .ok d ↔ ∃ ds, d = .tuple ds ∧ ts.length ≤ xs.length ∧
      ds.length = ts.length ∧
      ∀ (i : Nat) t x y, ts[i]? = some t → xs[i]? = some x → ds[i]? = some y → deAt structs k t x = .ok y) ∧
    (deAt structs k (.tupleStruct ts) (.array xs) = .ok d ↔ ∃ ds, d = .tupleStruct ds ∧ ts.length ≤ xs.length ∧
      ds.length = ts.length ∧
      ∀ (i : Nat) t x y, ts[i]? = some t → xs[i]? = some x → ds[i]? = some y → deAt structs k t x = .ok y) ∧
    (∀ v : Value, v.isArray = false → deAt structs k (.tuple ts) v ≠ .ok d ∧ deAt structs k (.tupleStruct ts) v ≠ .ok d) := by
  refine ⟨de_tuple_ok _ _ _ _, de_tupleStruct_ok _ _ _ _, fun v hv => ⟨fun h => ?_, fun h => ?_⟩⟩ <;>
    cases v <;> first | (cases hv; done) | simp [deAt, de] at h

/-- A tuple is read from a longer array, but not from a shorter one. -/
example : (∀ d, deAt (fun _ => []) 1 (.tuple [.bool, .char]) (.array [.string "TRUE"]) ≠ .ok d) ∧
    ∃ ds, Data.tuple [.bool true, .char 'x'] = .tuple ds ∧ ds.length = 2 := by
  constructor
  · intro d h
    obtain ⟨ds, -, h2, -⟩ := (C40_tuple (fun _ => []) 1 [.bool, .char] [.string "TRUE"] d).1.1 h
    revert h2; decide
  · obtain ⟨ds, h1, -, h3, -⟩ := (C40_tuple (fun _ => []) 1 [.bool, .char] [.string "TRUE", .string "xyz", .none]
      (.tuple [.bool true, .char 'x'])).1.1 (by rfl)
    exact ⟨ds, h1, h3⟩

/-- **C40.** In particular, elements after the last field are not even looked at. -/
theorem C40_surplus_dropped (structs : Nat → List (String × Ty)) (k : Nat) (ts : List Ty) (xs rest : List Value)
    (hl : ts.length ≤ xs.length) (d : Data) :
    deAt structs k (.tuple ts) (.array (xs ++ rest)) = .ok d ↔ deAt structs k (.tuple ts) (.array xs) = .ok d := by
  rw [(C40_tuple structs k ts _ d).1, (C40_tuple structs k ts _ d).1]
  refine exists_congr fun ds => and_congr_right fun _ => ?_
  constructor
  · rintro ⟨_, h2, h3⟩
    refine ⟨hl, h2, fun i t x y ht hx hy => h3 i t x y ht ?_ hy⟩
    rw [List.getElem?_append_left (lt_of_get hx)]; exact hx
  · rintro ⟨_, h2, h3⟩
    refine ⟨by simp; omega, h2, fun i t x y ht hx hy => h3 i t x y ht ?_ hy⟩
    rw [List.getElem?_append_left (by have := lt_of_get ht; omega)] at hx; exact hx

example : deAt (fun _ => []) 1 (.tuple [.bool, .char]) (.array [.string "TRUE", .string "xyz", .none]) =
    .ok (.tuple [.bool true, .char 'x']) := by rfl

/-! ## C44: iteration order -/

/-- **C44.** Two indistinguishable values deserialize alike — success and result — unless, read as the type, they
contain a map with two different texts for one key. -/
theorem C44_order_independent (structs : Nat → List (String × Ty)) (hs : ∀ n, WellFormed (.struct (structs n)))
    (T : Ty) (hT : WellFormed T) (k : Nat) (v w : Value) (hv : UniqueKeys v) (hw : UniqueKeys w) (h : Same v w)
    (hc : ¬ KeyClash structs T v) :
    ((∃ d, deAt structs k T v = .ok d) ↔ ∃ d, deAt structs k T w = .ok d) ∧
    ∀ d d', deAt structs k T v = .ok d → deAt structs k T w = .ok d' → DSame d d' := by
  have h1 := order_free (order_refs hs k) hT v w
  have h2 := order_free (order_refs hs k) hT w v
  have hc' : ¬ KeyClash structs T w := fun h' => hc (clash_same h' v (Same.symm' h))
  refine ⟨⟨?_, ?_⟩, ?_⟩
  · rintro ⟨d, hd⟩
    obtain ⟨d', h3, _⟩ := h1 d h hv hw hc hd
    exact ⟨d', h3⟩
  · rintro ⟨d, hd⟩
    obtain ⟨d', h3, _⟩ := h2 d (Same.symm' h) hw hv hc' hd
    exact ⟨d', h3⟩
  · intro d d' hd hd'
    obtain ⟨d'', h3, h4⟩ := h1 d h hv hw hc hd
    rw [deAt] at hd'
    rw [h3] at hd'
    cases hd'
    exact h4

/-- **C44.** The exception is real: with `"1"` and `"+1"` as keys of a `HashMap<i32, _>`, two iteration orders of
the same map give different results. -/
theorem C44_clash_is_real : ∃ (T : Ty) (v w : Value) (d d' : Data), UniqueKeys v ∧ UniqueKeys w ∧ Same v w ∧
    deAt (fun _ => []) 1 T v = .ok d ∧ deAt (fun _ => []) 1 T w = .ok d' ∧ ¬ DSame d d' := by
  refine ⟨.map (.int .i32) .bool, .map [("1", .boolean true), ("+1", .boolean false)],
    .map [("+1", .boolean false), ("1", .boolean true)], .map [(.int .i32 ⟨1, by decide⟩, .bool false)],
    .map [(.int .i32 ⟨1, by decide⟩, .bool true)], ?_, ?_, ?_, by rfl, by rfl, ?_⟩
  · simp [UniqueKeys, UniqueKeysMap, UniqueKeysEntry]
  · simp [UniqueKeys, UniqueKeysMap, UniqueKeysEntry]
  · rw [same_map]
    intro k
    simp only [hmGet]
    by_cases h1 : "1" = k
    · subst h1; simp; exact fun _ => rfl
    · by_cases h2 : "+1" = k
      · subst h2; simp; exact fun _ => rfl
      · simp [h1, h2]
  · intro h
    have := h [.key (.int .i32 ⟨1, by decide⟩)]
    simp [dview, dchild, keyOf, dhead] at this

/-- **C44.** Types whose maps all have string keys never clash, so for them deserialization is order-independent
without further condition. -/
theorem C44_string_keys_never_clash (structs : Nat → List (String × Ty)) (hs : ∀ n, StringKeyed (.struct (structs n)))
    (T : Ty) (hT : StringKeyed T) (v : Value) : ¬ KeyClash structs T v := by
  intro h
  induction h with
  | here h1 h2 _ _ =>
    cases hT with
    | leaf h => exact h _ _ rfl
    | map _ => exact h1 h2
  | entry _ _ ih => cases hT with | leaf h => exact h _ _ rfl | map h => exact ih h
  | option _ ih => cases hT with | leaf _ h => exact h _ rfl | option h => exact ih h
  | newtype _ ih => cases hT with | leaf _ _ h => exact h _ rfl | newtype h => exact ih h
  | seq _ _ ih => cases hT with | leaf _ _ _ h => exact h _ rfl | seq h => exact ih h
  | tuple h0 _ _ ih =>
    cases hT with | leaf _ _ _ _ h => exact h _ rfl | tuple h => exact ih (h _ (List.mem_of_getElem? h0))
  | tupleStruct h0 _ _ ih =>
    cases hT with | leaf _ _ _ _ _ h => exact h _ rfl | tupleStruct h => exact ih (h _ (List.mem_of_getElem? h0))
  | struct h0 _ _ ih => cases hT with | leaf _ _ _ _ _ _ h => exact h _ rfl | struct h => exact ih (h _ h0)
  | ref _ ih => exact ih (hs _)

end Verif.Props
