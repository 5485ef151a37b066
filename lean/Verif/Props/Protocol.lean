import Verif.Lemmas.Protocol
/-!
# C68, C69: hand-written `Serialize` and `Deserialize` implementations

They drive the crate's compound serializers and accessors in whatever order they like.
-/
namespace Verif.Props
open Spec

/-! ## C68: serializing -/

/-- **C68.** A history of key/value/field calls panics exactly if one of them cannot be served: a value without a
pending key (or an argument that panics by itself). -/
theorem C68_panics_iff (cs : List MapCall) : SerMap.new.calls cs = none ↔ ∃ i, Unservable cs i := by
  rcases calls_tracks cs with ⟨h, i⟩ | ⟨st, h, hu, _⟩
  · exact ⟨fun _ => i, fun _ => h⟩
  · rw [h]; exact ⟨fun h => (by cases h), fun ⟨i, hi⟩ => absurd hi (hu i)⟩

/-- **C68.** Otherwise the finished value is a map that holds under every key exactly what the last call that
stored something under it stored; keys that never got a value, and failed calls, leave no trace. -/
theorem C68_result (cs : List MapCall) (st : SerMap) (h : SerMap.new.calls cs = some st) :
    st.finish.isMap = true ∧ (∀ k x, child st.finish (.key k) = some x ↔ LastWritten cs k x) ∧
    (∃ m, st.finish = .map m ∧ (m.map Prod.fst).Nodup) := by
  rcases calls_tracks cs with ⟨h', _⟩ | ⟨st', h', _, ht⟩
  · rw [h] at h'; cases h'
  · rw [h] at h'; cases h'
    obtain ⟨m, em, hn, hm⟩ := ht.map
    have e : st.finish = .map m := em
    refine ⟨by rw [e]; rfl, ?_, m, e, hn⟩
    intro k x
    rw [e, child_key_map]
    exact hm k x

example (st : SerMap) (h : SerMap.new.calls [.key (.ok (.string "a")), .value (.ok .none), .field "a" (.ok (.boolean true))] = some st) :
    child st.finish (.key "a") = some (.boolean true) := by
  refine ((C68_result _ st h).2.1 "a" (.boolean true)).2 ⟨2, Or.inr rfl, ?_⟩
  rintro j y hj (⟨h, -⟩ | h)
  all_goals
    have := (List.getElem?_eq_some_iff.1 h).1
    simp at this
    omega

/-- **C68.** A failing `serialize_value` uses up the pending key, a failing `serialize_key` keeps it, and a second
`serialize_key` replaces it; all three leave what was stored before alone. -/
theorem C68_pending (cs : List MapCall) (e : ModelError) (v : Value) (k k' : String) (hk : Pending cs k)
    (hv : v.tryIntoMethod .string = .ok k') :
    (∀ k, ¬ Pending (cs ++ [.value (.err e)]) k) ∧ Pending (cs ++ [.key (.err e)]) k ∧
    Pending (cs ++ [.key (.ok v)]) k' ∧
    (∀ j x, LastWritten (cs ++ [.value (.err e)]) j x ↔ LastWritten cs j x) ∧
    (∀ j x, LastWritten (cs ++ [.key (.err e)]) j x ↔ LastWritten cs j x) ∧
    (∀ j x, LastWritten (cs ++ [.key (.ok v)]) j x ↔ LastWritten cs j x) := by
  refine ⟨?_, ?_, ?_, ?_, ?_, ?_⟩
  · intro k; rw [pending_snoc]
    rintro (⟨_, h, _⟩ | ⟨_, _, h⟩)
    · cases h
    · exact h ⟨_, rfl⟩
  · rw [pending_snoc]
    exact Or.inr ⟨hk, (fun k ⟨_, h, _⟩ => by cases h), (fun ⟨_, h⟩ => by cases h)⟩
  · rw [pending_snoc]; exact Or.inl ⟨v, rfl, hv⟩
  all_goals
    intro j x
    apply lastWritten_snoc_none
    rintro _ _ (⟨h, _⟩ | h) <;> cases h

/-- After a key, a failing value uses the key up, a failing key leaves it pending. -/
example : (∀ k, ¬ Pending [.key (.ok (.string "a")), .value (.err .operationOnlyForMapValue)] k) ∧
    Pending [.key (.ok (.string "a")), .key (.err .operationOnlyForMapValue)] "a" ∧
    Pending [.key (.ok (.string "a")), .key (.ok (.integer ⟨5, by decide⟩))] "5" := by
  have hp : Pending [.key (.ok (.string "a"))] "a" := by
    refine ⟨0, _, rfl, ⟨_, rfl, rfl⟩, ?_⟩
    intro i c hi hc
    have := (List.getElem?_eq_some_iff.1 hc).1
    simp at this; omega
  have h := C68_pending [.key (.ok (.string "a"))] .operationOnlyForMapValue (.integer ⟨5, by decide⟩) "a" "5" hp (by decide)
  exact ⟨h.1, h.2.1, h.2.2.1⟩

/-- **C68.** The finished map of a struct variant is the only entry, under the variant's name. -/
theorem C68_variant (st : SerMap) (name : String) :
    st.finishVariant name = .ok (.map [(name, st.finish)]) := rfl

/-- **C68.** An implementation that passes errors on gets the same result as one that ignores them, if there are
none. -/
theorem C68_question_mark (cs : List MapCall) : ∀ (st st' : SerMap), st.callsQ cs = .ok st' → st.calls cs = some st' := by
  induction cs with
  | nil => intro st st' h; cases h; rfl
  | cons c r ih =>
    intro st st' h
    simp only [SerMap.callsQ] at h
    split at h
    · cases h
    · cases h
    · rename_i s hs
      simp only [SerMap.calls, hs]
      exact ih _ _ h

example : ∃ st, SerMap.new.callsQ [.key (.ok (.string "a")), .value (.ok .none)] = .ok st ∧
    SerMap.new.calls [.key (.ok (.string "a")), .value (.ok .none)] = some st :=
  ⟨_, rfl, C68_question_mark _ _ _ rfl⟩

/-- The calls a standard map makes for its entries. -/
def entryCalls (es : List (Data × Data)) : List MapCall := es.flatMap fun e => [.key (ser e.1), .value (ser e.2)]

/-- The calls a derived struct makes for its fields. -/
def fieldCalls (fs : List (String × Data)) : List MapCall := fs.map fun f => .field f.1 (ser f.2)

/-- **C68.** Standard maps and derived structs are such histories. -/
theorem C68_standard (es : List (Data × Data)) (fs : List (String × Data)) (name : String) :
    ser (.map es) = (SerMap.new.callsQ (entryCalls es) >>= fun st => .ok st.finish) ∧
    ser (.struct fs) = (SerMap.new.callsQ (fieldCalls fs) >>= fun st => .ok st.finish) ∧
    ser (.structVariant name fs) = (SerMap.new.callsQ (fieldCalls fs) >>= fun st => st.finishVariant name) := by
  have h1 : ∀ (es : List (Data × Data)) (st : SerMap), serEntries st es = st.callsQ (entryCalls es) := by
    intro es
    induction es with
    | nil => intro st; rfl
    | cons e r ih =>
      intro st
      obtain ⟨k, v⟩ := e
      rw [serEntries, serEntry]
      simp only [entryCalls, List.flatMap_cons, List.cons_append, List.nil_append, SerMap.callsQ]
      cases ser k with
      | panic => rfl
      | err e => rfl
      | ok kv =>
        simp only [SerMap.call, Outcome.bind_ok, SerMap.putKey]
        cases kv.tryIntoMethod .string with
        | error e => rfl
        | ok ks =>
          simp only [Outcome.ofExcept, Outcome.bind_ok, SerMap.takeKey, SerMap.callsQ, SerMap.call]
          cases ser v with
          | panic => rfl
          | err e => rfl
          | ok x =>
            simp only [Outcome.bind_ok, setQ]
            generalize st.map.set ks x = q
            obtain ⟨o, m⟩ := q
            cases o with
            | error e => rfl
            | ok u => exact ih _
  have h2 : ∀ (fs : List (String × Data)) (st : SerMap),
      (serFields st.map fs) = (st.callsQ (fieldCalls fs) >>= fun s => .ok s.map) := by
    intro fs
    induction fs with
    | nil => intro st; rfl
    | cons f r ih =>
      intro st
      obtain ⟨n, d⟩ := f
      rw [serFields, serField]
      simp only [fieldCalls, List.map_cons, SerMap.callsQ]
      cases ser d with
      | panic => rfl
      | err e => rfl
      | ok x =>
        simp only [SerMap.call, Outcome.bind_ok, setQ]
        generalize st.map.set n x = q
        obtain ⟨o, m⟩ := q
        cases o with
        | error e => rfl
        | ok u => exact ih { st with map := m }
  refine ⟨?_, ?_, ?_⟩
  · rw [ser, h1]; rfl
  · rw [ser]; exact h2 fs SerMap.new
  · rw [ser]
    have := h2 fs SerMap.new
    simp only [SerMap.new] at this
    rw [this]
    simp only [SerMap.new, SerMap.finishVariant]
    cases SerMap.callsQ _ (fieldCalls fs) <;> rfl

/-- **C68.** A history of element calls panics exactly if an argument does; otherwise the finished array holds
exactly the elements whose serialization succeeded, in order. -/
theorem C68_elements (size : Nat) (cs : List (Outcome ModelError Value)) :
    (.panic ∈ cs ∧ serSeqCalls (serSeqNew size) cs = none) ∨
    (.panic ∉ cs ∧ serSeqCalls (serSeqNew size) cs =
      some (.array (cs.filterMap fun c => match c with | .ok x => some x | _ => none))) := by
  have h : ∀ (cs : List (Outcome ModelError Value)) (acc : List Value),
      (.panic ∈ cs ∧ serSeqCalls (.array acc) cs = none) ∨
      (.panic ∉ cs ∧ serSeqCalls (.array acc) cs =
        some (.array (acc ++ cs.filterMap fun c => match c with | .ok x => some x | _ => none))) := by
    intro cs
    induction cs with
    | nil => intro acc; right; simp [serSeqCalls]
    | cons c r ih =>
      intro acc
      cases c with
      | ok x => simpa [serSeqCalls, serSeqCall, Value.push] using ih (acc ++ [x])
      | err e => simpa [serSeqCalls, serSeqCall] using ih acc
      | panic => left; simp [serSeqCalls, serSeqCall]
  simpa [serSeqNew, Value.withArrayCapacity] using h cs []

/-- A history in which a key is replaced, a value fails, a key is written twice and a key is left without value. -/
example :
    let cs : List MapCall := [.key (.ok (.string "a")), .key (.ok (.integer ⟨1, by decide⟩)), .value (.ok (.boolean true)),
      .key (.ok (.string "b")), .value (.err .operationOnlyForMapValue), .field "1" (.ok (.string "x")), .key (.ok (.string "c"))]
    ∃ st, SerMap.new.calls cs = some st ∧ st.finish.get "1" = .string "x" ∧ st.finish.len = 1 ∧
      LastWritten cs "1" (.string "x") ∧ Pending cs "c" ∧ Unservable (cs ++ [.value (.ok .none), .value (.ok .none)]) 8 := by
  refine ⟨_, rfl, rfl, rfl, ?_, ?_, ?_⟩
  · refine ⟨5, Or.inr rfl, ?_⟩
    rintro j y hj (⟨h, _⟩ | h)
    all_goals
      have : j < 7 := by simpa using (List.getElem?_eq_some_iff.1 h).1
      have : j = 6 := by omega
      subst this; simp at h
  · refine ⟨6, _, rfl, ⟨_, rfl, rfl⟩, ?_⟩
    intro i c' hi h
    have : i < 7 := by simpa using (List.getElem?_eq_some_iff.1 h).1
    omega
  · refine Or.inl ⟨⟨_, rfl⟩, ?_⟩
    intro k
    have := pending_snoc [.key (.ok (.string "a")), .key (.ok (.integer ⟨1, by decide⟩)), .value (.ok (.boolean true)),
      .key (.ok (.string "b")), .value (.err .operationOnlyForMapValue), .field "1" (.ok (.string "x")), .key (.ok (.string "c"))]
      (.value (.ok .none)) k
    simp only [List.cons_append, List.nil_append] at this
    simp only [List.cons_append, List.nil_append, List.take_succ_cons, List.take_zero]
    rw [this]
    rintro (⟨_, h, _⟩ | ⟨_, _, h⟩)
    · cases h
    · exact h ⟨_, rfl⟩

/-! ## C69: deserializing -/

/-- How many values were taken by the first `i` calls. -/
def taken {α : Type} (cs : List (AccessCall α)) (i : Nat) : Nat :=
  ((cs.take i).filter fun c => match c with | .nextValue _ => true | _ => false).length

/-- **C69.** Whatever the order of the calls on a map accessor: a key call answers with the key of the first entry
whose value was not taken yet (without using it up), or that there is none; a value call takes that entry's
value, or panics if there is none. Failing seeds make no difference. -/
theorem C69_map_access {α : Type} (cs : List (AccessCall α)) : ∀ (m : List (String × Value)) (i : Nat) (s : Value → Outcome ModelError α),
    (cs[i]? = some (.nextKey s) → (accessCalls m cs)[i]? = some (match m[taken cs i]? with
      | some e => s (.string e.1) >>= fun a => .ok (some a)
      | none => .ok none)) ∧
    (cs[i]? = some (.nextValue s) → (accessCalls m cs)[i]? = some (match m[taken cs i]? with
      | some e => s e.2 >>= fun a => .ok (some a)
      | none => .panic)) := by
  induction cs with
  | nil => intro m i s; simp
  | cons c r ih =>
    intro m i s
    cases i with
    | zero =>
      simp only [List.getElem?_cons_zero, Option.some.injEq, accessCalls, taken, List.take_zero, List.filter_nil,
        List.length_nil]
      constructor <;> rintro rfl <;> cases m <;> rfl
    | succ i =>
      simp only [List.getElem?_cons_succ, accessCalls]
      have hm : m[taken (c :: r) (i + 1)]? = (accessCall m c).2[taken r i]? := by
        cases c with
        | nextKey s => cases m <;> simp [taken, accessCall]
        | nextValue s => cases m <;> simp [taken, accessCall]
      rw [hm]
      exact ih _ i s

/-- The second `next_key` before any `next_value` sees the first key again; a third value is a panic. -/
example : (accessCalls [("a", .string "x"), ("b", .none)] [.nextKey (fun v => .ok v.len), .nextKey (fun v => .ok v.len), .nextValue (fun v => .ok v.len)])[1]? =
      some (.ok (some 1)) ∧
    (accessCalls [("a", Value.string "x")] [.nextValue (fun v => .ok v.len), .nextValue (fun v => .ok v.len)])[1]? = some .panic :=
  ⟨(C69_map_access _ [("a", .string "x"), ("b", .none)] 1 (fun v => .ok v.len)).1 rfl,
   (C69_map_access [.nextValue (fun v => .ok v.len), .nextValue (fun v => .ok v.len)] [("a", .string "x")] 1 (fun v => .ok v.len)).2 rfl⟩

/-- **C69.** The regular protocol (a key, then its value) sees every entry exactly once, in order, and then the
end. -/
theorem C69_alternating {α : Type} (s : Value → Outcome ModelError α) (m : List (String × Value)) :
    accessCalls m ((m.flatMap fun _ => [.nextKey s, .nextValue s]) ++ [.nextKey s]) =
      (m.flatMap fun e => [s (.string e.1) >>= fun a => .ok (some a), s e.2 >>= fun a => .ok (some a)]) ++ [.ok none] := by
  induction m with
  | nil => rfl
  | cons e r ih =>
    simp only [List.flatMap_cons, List.cons_append, List.nil_append, accessCalls, accessCall]
    rw [ih]

example (s : Value → Outcome ModelError Nat) : accessCalls [("a", .string "x"), ("b", .none)]
      [.nextKey s, .nextValue s, .nextKey s, .nextValue s, .nextKey s] =
    [s (.string "a") >>= fun a => .ok (some a), s (.string "x") >>= fun a => .ok (some a),
     s (.string "b") >>= fun a => .ok (some a), s .none >>= fun a => .ok (some a), .ok none] :=
  C69_alternating s [("a", .string "x"), ("b", .none)]

/-- **C69.** A visitor that only asks for keys never gets to the end of a non-empty map: every answer is the first
key again. -/
theorem C69_keys_only {α : Type} (k : String) (v : Value) (m : List (String × Value)) (ss : List (Value → Outcome ModelError α)) :
    accessCalls ((k, v) :: m) (ss.map .nextKey) = ss.map fun s => s (.string k) >>= fun a => .ok (some a) := by
  induction ss with
  | nil => rfl
  | cons s r ih => simp only [List.map_cons, accessCalls, accessCall, ih]

/-- **C69.** A visitor that only asks for values sees every value once, and then panics. -/
theorem C69_values_only {α : Type} (s : Value → Outcome ModelError α) (m : List (String × Value)) :
    accessCalls m ((m.map fun _ => .nextValue s) ++ [.nextValue s]) =
      (m.map fun e => s e.2 >>= fun a => .ok (some a)) ++ [.panic] := by
  induction m with
  | nil => rfl
  | cons e r ih =>
    simp only [List.map_cons, List.cons_append, accessCalls, accessCall]
    rw [ih]

/-- **C69.** The `i`-th element call answers with the `i`-th element or that there is none, whatever the earlier
seeds did; the size hint is always the exact number of elements left. -/
theorem C69_elements {α : Type} (ss : List (Value → Outcome ModelError α)) : ∀ (xs : List Value),
    (∀ (i : Nat) (s : Value → Outcome ModelError α), ss[i]? = some s → (elementCalls xs ss).1[i]? = some (match xs[i]? with
      | some x => s x >>= fun a => .ok (some a)
      | none => .ok none)) ∧
    elementHint (elementCalls xs ss).2 = some (xs.length - ss.length) := by
  induction ss with
  | nil => intro xs; simp [elementCalls, elementHint]
  | cons s r ih =>
    intro xs
    constructor
    · intro i t h
      cases i with
      | zero =>
        simp only [List.getElem?_cons_zero, Option.some.injEq] at h; subst h
        cases xs <;> rfl
      | succ i =>
        simp only [List.getElem?_cons_succ] at h
        simp only [elementCalls, List.getElem?_cons_succ, (ih _).1 i t h]
        cases xs <;> simp [elementCall]
    · simp only [elementCalls]
      rw [(ih _).2]
      cases xs <;> simp [elementCall]

/-- A third element of two: `None`; the size hint then is 0. -/
example : (elementCalls [.string "x", .none] [fun v => .ok v.len, fun v => .ok v.len, fun v => .ok v.len]).1[2]? = some (.ok none) ∧
    elementHint (elementCalls [.string "x", .none] [fun v => Outcome.ok v.len, fun v => .ok v.len, fun v => .ok v.len]).2 = some 0 :=
  ⟨(C69_elements [fun v => .ok v.len, fun v => .ok v.len, fun v => .ok v.len] [.string "x", .none]).1 2 (fun v => .ok v.len) rfl,
   (C69_elements [fun v => Outcome.ok v.len, fun v => .ok v.len, fun v => .ok v.len] [.string "x", .none]).2⟩

/-- **C69.** The loops of the standard visitors are such histories: each round of `Vec`'s visitor is one element
call, each round of a map's visitor is a key call followed by a value call, and they stop when the accessor says
so. -/
theorem C69_standard (dec : Decoder) (kt : KeyTy) (acc : List Data) (es : List (Key × Data)) (xs : List Value)
    (m : List (String × Value)) :
    deVecLoop dec acc xs = (match elementCall xs dec with
      | (.ok none, _) => .ok acc
      | (.ok (some d), r) => deVecLoop dec (acc ++ [d]) r
      | (.err e, _) => .err e
      | (.panic, _) => .panic) ∧
    deMapLoop kt dec es m = (match accessCall m (.nextKey fun v => match v with | .string k => deKey kt k | _ => .panic) with
      | (.ok none, _) => .ok es
      | (.ok (some k), r) => match accessCall r (.nextValue dec) with
        | (.ok (some d), r) => deMapLoop kt dec (keyInsert es k d) r
        | (.ok none, _) => .panic
        | (.err e, _) => .err e
        | (.panic, _) => .panic
      | (.err e, _) => .err e
      | (.panic, _) => .panic) := by
  constructor
  · cases xs with
    | nil => rfl
    | cons x r => simp only [deVecLoop, elementCall]; cases dec x <;> rfl
  · cases m with
    | nil => rfl
    | cons e r =>
      obtain ⟨k, v⟩ := e
      simp only [deMapLoop, accessCall]
      cases deKey kt k with
      | err e => rfl
      | panic => rfl
      | ok key =>
        simp only [Outcome.bind_ok]
        cases dec v <;> rfl

/-- A history on a two-entry map: the same key twice, a value that fails, the next key, its value, the end, a
panic. -/
example :
    accessCalls [("a", .string "x"), ("b", .integer ⟨2, by decide⟩)]
      [.nextKey (fun v => .ok v.len), .nextKey (fun v => .ok v.len), .nextValue (fun _ => .err .operationOnlyForMapValue),
       .nextKey (fun v => .ok v.len), .nextValue (fun v => .ok v.len), .nextKey (fun v => .ok v.len), .nextValue (fun v => .ok v.len)] =
    [.ok (some 1), .ok (some 1), .err .operationOnlyForMapValue, .ok (some 1), .ok (some 0), .ok none, .panic] := by
  rfl

end Verif.Props
