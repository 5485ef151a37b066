import Verif.Spec.StdTypes
import Verif.Props.Visitor
/-!
# Types of the standard library in a configuration (C93)
-/
namespace Verif.Props
open Spec

/-! ## Sets -/

theorem setLoop_ok (same : Data → Data → Bool) (dec : Decoder) (hs : ∀ a, same a a = true) (hsym : ∀ a b, same a b = true → same b a = true) (xs : List Value) : ∀ (acc ds : List Data),
    setLoop same dec acc xs = .ok ds →
    ∃ ys zs, List.Forall₂ (fun x y => dec x = .ok y) xs ys ∧ ds = acc ++ zs ∧ zs.Sublist ys ∧
      (acc.Pairwise (fun a b => same a b = false) → ds.Pairwise (fun a b => same a b = false)) ∧ ∀ y ∈ ys, ∃ d ∈ ds, same y d = true := by
  induction xs with
  | nil =>
    intro acc ds h
    cases h
    exact ⟨[], [], .nil, by simp, .slnil, id, by simp⟩
  | cons x r ih =>
    intro acc ds h
    rw [setLoop, bind_eq_ok] at h
    obtain ⟨y, h1, h2⟩ := h
    obtain ⟨ys, zs, g1, g2, g3, g4, g5⟩ := ih _ _ h2
    by_cases hin : acc.any (same y) = true
    · rw [if_pos hin] at g2 g4
      refine ⟨y :: ys, zs, .cons h1 g1, g2, g3.cons y, g4, ?_⟩
      intro z hz
      rcases List.mem_cons.1 hz with rfl | hz
      · obtain ⟨d, hd, he⟩ := List.any_eq_true.1 hin
        exact ⟨d, by rw [g2]; simp [hd], he⟩
      · exact g5 z hz
    · rw [if_neg hin] at g2 g4
      refine ⟨y :: ys, y :: zs, .cons h1 g1, by rw [g2]; simp, g3.cons₂ y, ?_, ?_⟩
      · intro hp
        refine g4 ?_
        rw [List.pairwise_append]
        refine ⟨hp, List.pairwise_singleton _ _, ?_⟩
        intro a ha b hb
        rw [List.mem_singleton] at hb
        subst hb
        cases hab : same a b with
        | false => rfl
        | true => exact absurd (List.any_eq_true.2 ⟨a, ha, hsym _ _ hab⟩) hin
      · intro z hz
        rcases List.mem_cons.1 hz with rfl | hz
        · exact ⟨z, by rw [g2]; simp, hs z⟩
        · exact g5 z hz

theorem setLoop_total (same : Data → Data → Bool) (dec : Decoder) (xs : List Value) (ys : List Data)
    (h : List.Forall₂ (fun x y => dec x = .ok y) xs ys) : ∀ acc, ∃ ds, setLoop same dec acc xs = .ok ds := by
  induction h with
  | nil => intro acc; exact ⟨acc, rfl⟩
  | cons h _ ih =>
    intro acc
    rw [setLoop, h, Outcome.bind_ok]
    exact ih _

/-- **C93**, sets: a set is read exactly from a list all of whose elements can be read; it holds one of each group of equal elements. -/
theorem C93_set (same : Data → Data → Bool) (hs : ∀ a, same a a = true) (hsym : ∀ a b, same a b = true → same b a = true) (dec : Decoder) (v : Value) :
    ((∃ d, deSet same dec v = .ok d) ↔ ∃ xs ys, v = .array xs ∧ List.Forall₂ (fun x y => dec x = .ok y) xs ys) ∧
    ∀ d, deSet same dec v = .ok d → ∃ ds, d = .seq ds ∧ ds.Pairwise (fun a b => same a b = false) ∧
      ∀ xs ys, v = .array xs → List.Forall₂ (fun x y => dec x = .ok y) xs ys →
        ds.Sublist ys ∧ ∀ y ∈ ys, ∃ d ∈ ds, same y d = true := by
  have loop : ∀ d, deSet same dec v = .ok d ↔ ∃ xs ds, v = .array xs ∧ setLoop same dec [] xs = .ok ds ∧ d = .seq ds := by
    intro d
    constructor
    · intro h
      cases v <;> first | (cases h; done) | skip
      rename_i xs
      change (setLoop same dec [] xs >>= fun ds => .ok (.seq ds)) = .ok d at h
      rw [bind_eq_ok] at h
      obtain ⟨ds, h1, h2⟩ := h
      exact ⟨xs, ds, rfl, h1, by cases h2; rfl⟩
    · rintro ⟨xs, ds, rfl, h1, rfl⟩
      show (setLoop same dec [] xs >>= fun ds => (Outcome.ok (Data.seq ds) : Outcome ModelError Data)) = _
      rw [h1]; rfl
  constructor
  · constructor
    · rintro ⟨d, h⟩
      obtain ⟨xs, ds, rfl, h1, -⟩ := (loop d).1 h
      obtain ⟨ys, zs, g1, -⟩ := setLoop_ok same dec hs hsym xs [] ds h1
      exact ⟨xs, ys, rfl, g1⟩
    · rintro ⟨xs, ys, rfl, h⟩
      obtain ⟨ds, hds⟩ := setLoop_total same dec xs ys h []
      exact ⟨_, (loop _).2 ⟨xs, ds, rfl, hds, rfl⟩⟩
  · intro d h
    obtain ⟨xs, ds, rfl, h1, rfl⟩ := (loop d).1 h
    obtain ⟨ys, zs, g1, g2, g3, g4, g5⟩ := setLoop_ok same dec hs hsym xs [] ds h1
    refine ⟨ds, rfl, g4 List.Pairwise.nil, ?_⟩
    intro xs' ys' e hys
    cases e
    have : ys' = ys := by
      clear g2 g3 g4 g5 h1 h loop
      induction g1 generalizing ys' with
      | nil => cases hys; rfl
      | cons a _ ih =>
        cases hys with
        | cons b hr =>
          rw [a] at b
          cases b
          rw [ih _ hr]
    subst this
    rw [List.nil_append] at g2
    subst g2
    exact ⟨g3, g5⟩

/-! ## Scalars -/

theorem int_on {t : IntTy} (h1 : t ≠ .i128) (h2 : t ≠ .u128) (v : Value) (d : Data) :
    (Method.int t).on (intVisitor t) v = .ok d ↔ ∃ n, v.tryInto (.int t) = .ok n ∧ d = .int t n := by
  rw [show (Method.int t).on (intVisitor t) v = de (fun _ _ => .panic) (.int t) v from (C92_types _ (.int t) (by intro n h; cases h) v).symm]
  show (deInt t v >>= fun n => (Outcome.ok (Data.int t n) : Outcome ModelError Data)) = .ok d ↔ _
  rw [deInt_eq ⟨h1, h2⟩, bind_eq_ok]
  constructor
  · rintro ⟨n, g1, g2⟩
    rw [ofExcept_ok] at g1
    cases g2
    exact ⟨n, g1, rfl⟩
  · rintro ⟨n, g1, rfl⟩
    exact ⟨n, by rw [ofExcept_ok]; exact g1, rfl⟩

/-- **C93**, non-zero integers: read exactly from what converts to the integer type and is not zero. -/
theorem C93_nonzero (t : IntTy) (h1 : t ≠ .i128) (h2 : t ≠ .u128) (v : Value) (d : Data) :
    deNonZero t v = .ok d ↔ ∃ n : IntOf t, v.tryInto (.int t) = .ok n ∧ n.1 ≠ 0 ∧ d = .int t n := by
  unfold deNonZero
  rw [bind_eq_ok]
  constructor
  · rintro ⟨a, g1, g2⟩
    obtain ⟨n, g3, rfl⟩ := (int_on h1 h2 v a).1 g1
    simp only at g2
    split at g2
    · cases g2
    · cases g2; exact ⟨n, g3, by assumption, rfl⟩
  · rintro ⟨n, g1, g2, rfl⟩
    refine ⟨.int t n, (int_on h1 h2 v _).2 ⟨n, g1, rfl⟩, ?_⟩
    simp only
    rw [if_neg g2]

/-- **C93**, types that are parsed from text (`IpAddr`, `SocketAddr`, …): read exactly from scalars whose text parses; a path from any scalar, as its text. -/
theorem C93_parsed (parse : String → Option Data) (v : Value) (d : Data) :
    (deParsed parse v = .ok d ↔ ∃ s, v.tryInto .string = .ok s ∧ parse s = some d) ∧
    (dePath v = .ok d ↔ ∃ s, v.tryInto .string = .ok s ∧ d = .str s) := by
  constructor
  · show (Outcome.ofExcept (v.tryInto .string) >>= fun s => match parse s with
      | some d => .ok d
      | none => .err (.deserializationError "invalid syntax")) = _ ↔ _
    rw [bind_eq_ok]
    constructor
    · rintro ⟨s, g1, g2⟩
      rw [ofExcept_ok] at g1
      refine ⟨s, g1, ?_⟩
      cases hp : parse s with
      | none => rw [hp] at g2; cases g2
      | some x => rw [hp] at g2; cases g2; rfl
    · rintro ⟨s, g1, g2⟩
      exact ⟨s, by rw [ofExcept_ok]; exact g1, by rw [g2]⟩
  · show (Outcome.ofExcept (v.tryInto .string) >>= fun s => (Outcome.ok (.str s) : Outcome ModelError Data)) = _ ↔ _
    rw [bind_eq_ok]
    constructor
    · rintro ⟨s, g1, g2⟩
      rw [ofExcept_ok] at g1
      cases g2
      exact ⟨s, g1, rfl⟩
    · rintro ⟨s, g1, rfl⟩
      exact ⟨s, by rw [ofExcept_ok]; exact g1, rfl⟩

/-! ## Durations and ranges -/

theorem nanosOf_inj {d d' : Data} {k : Int} (h : nanosOf d = some k) (h' : nanosOf d' = some k) : d = d' := by
  unfold nanosOf at h h'
  split at h
  · rename_i s n
    split at h'
    · rename_i s' n'
      split at h
      · split at h'
        · simp only [Option.some.injEq] at h h'
          have hs := n.2.1
          have hs' := n'.2.1
          simp only [IntTy.lo] at hs hs'
          have e1 : n.1 = n'.1 := by omega
          have e2 : s.1 = s'.1 := by omega
          rw [Subtype.ext e1, Subtype.ext e2]
        · cases h'
      · cases h
    · cases h'
  · cases h

/-- A required field. -/
theorem required_get {v : Value} {n : String} {dec : Decoder} {e : ModelError} {d : Data} :
    FieldGets v ⟨n, [], false, dec, .err e⟩ d ↔ ∃ x, child v (.key n) = some x ∧ dec x = .ok d := by
  constructor
  · intro h
    cases h with
    | read k x hk hx only hd =>
      simp only [readFrom, Bool.false_eq_true, if_false, List.mem_singleton] at hk
      subst hk
      exact ⟨x, hx, hd⟩
    | absent _ hd => cases hd
  · rintro ⟨x, hx, hd⟩
    refine .read n x (by simp [readFrom]) hx ?_ hd
    intro k hk _
    simpa [readFrom] using hk

/-- Two required fields and no others. -/
theorem two_fields {n1 n2 : String} (hne : n1 ≠ n2) {dec1 dec2 : Decoder} {e1 e2 : ModelError} {v : Value} (hu : UniqueKeys v) (d : Data) :
    deAttrs true [⟨n1, [], false, dec1, .err e1⟩, ⟨n2, [], false, dec2, .err e2⟩] v = .ok d ↔
      v.isMap = true ∧ (∀ k x, child v (.key k) = some x → k = n1 ∨ k = n2) ∧
      ∃ x y a b, child v (.key n1) = some x ∧ child v (.key n2) = some y ∧ dec1 x = .ok a ∧ dec2 y = .ok b ∧ d = .struct [(n1, a), (n2, b)] := by
  have hd : AttrsDistinct [⟨n1, [], false, dec1, .err e1⟩, ⟨n2, [], false, dec2, .err e2⟩] := by
    constructor <;> simp [readFrom, hne]
  by_cases hm : v.isMap = true
  · rw [C90_exact true _ hd v hu hm]
    simp only [hm, true_and, forall_const]
    refine and_congr ?_ ?_
    · refine forall_congr' fun k => forall_congr' fun x => ?_
      refine imp_congr_right fun _ => ?_
      simp [readFrom]
    · constructor
      · rintro ⟨ds, rfl, h⟩
        cases h with
        | cons h1 h =>
          cases h with
          | cons h2 h =>
            cases h
            rename_i p q
            obtain ⟨p1, p2⟩ := p
            obtain ⟨q1, q2⟩ := q
            obtain ⟨a1, a2⟩ := h1
            obtain ⟨b1, b2⟩ := h2
            simp only at a1 b1
            subst a1 b1
            obtain ⟨x, hx, hdx⟩ := required_get.1 a2
            obtain ⟨y, hy, hdy⟩ := required_get.1 b2
            exact ⟨x, y, p2, q2, hx, hy, hdx, hdy, rfl⟩
      · rintro ⟨x, y, a, b, hx, hy, hdx, hdy, rfl⟩
        exact ⟨_, rfl, .cons ⟨rfl, required_get.2 ⟨x, hx, hdx⟩⟩ (.cons ⟨rfl, required_get.2 ⟨y, hy, hdy⟩⟩ .nil)⟩
  · constructor
    · intro h
      cases v <;> first | exact absurd rfl hm | cases h
    · rintro ⟨h, -⟩; exact absurd h hm

theorem durationNew_ok (s : IntOf .u64) (n : IntOf .u32) (d : Data) :
    durationNew s n = .ok d ↔ nanosOf d = some (s.1 * 1000000000 + n.1) := by
  have hn := n.2
  have hs := s.2
  simp only [IntTy.lo, IntTy.hi] at hn hs
  have hN : ∃ n' : IntOf .u32, IntTy.u32.tryFrom (n.1 % 1000000000) = some n' ∧ n'.1 = n.1 % 1000000000 :=
    ⟨⟨n.1 % 1000000000, by simp only [IntTy.lo, IntTy.hi]; omega⟩, by
      unfold IntTy.tryFrom; rw [dif_pos], rfl⟩
  obtain ⟨n', hn1, hn2⟩ := hN
  by_cases hfit : s.1 + n.1 / 1000000000 ≤ IntTy.u64.hi
  · have hfit' : IntTy.u64.lo ≤ s.1 + n.1 / 1000000000 ∧ s.1 + n.1 / 1000000000 ≤ IntTy.u64.hi :=
      ⟨by simp only [IntTy.lo]; omega, hfit⟩
    have hS : IntTy.u64.tryFrom (s.1 + n.1 / 1000000000) = some ⟨s.1 + n.1 / 1000000000, hfit'⟩ := by
      unfold IntTy.tryFrom; rw [dif_pos hfit']
    have hval : durationNew s n = .ok (.struct [("secs", .int .u64 ⟨s.1 + n.1 / 1000000000, hfit'⟩), ("nanos", .int .u32 n')]) := by
      unfold durationNew; rw [hS, hn1]
    have hnan : nanosOf (.struct [("secs", .int .u64 ⟨s.1 + n.1 / 1000000000, hfit'⟩), ("nanos", .int .u32 n')]) =
        some (s.1 * 1000000000 + n.1) := by
      simp only [nanosOf]
      rw [if_pos (by omega)]
      simp only [Option.some.injEq]
      omega
    constructor
    · intro h
      rw [hval] at h
      cases h
      exact hnan
    · intro h
      rw [hval, nanosOf_inj h hnan]
  · have hS : IntTy.u64.tryFrom (s.1 + n.1 / 1000000000) = none := by
      unfold IntTy.tryFrom; rw [dif_neg (fun h => hfit h.2)]
    constructor
    · intro h
      unfold durationNew at h
      rw [hS] at h
      cases h
    · intro h
      unfold nanosOf at h
      split at h
      · rename_i s' n''
        split at h
        · simp only [Option.some.injEq] at h
          have h1 := s'.2
          have h2 := n''.2
          simp only [IntTy.lo, IntTy.hi] at h1 h2 hfit
          omega
        · cases h
      · cases h

/-- **C93**, durations: read exactly from a map with the two entries `secs` and `nanos`, and no other, that convert to `u64` and `u32`, provided the sum fits; the
result is that many nanoseconds, normalised. Anything but a map is an error; nothing panics. -/
theorem C93_duration (v : Value) (hu : UniqueKeys v) :
    (∀ d, deDuration v = .ok d ↔ v.isMap = true ∧ (∀ k x, child v (.key k) = some x → k = "secs" ∨ k = "nanos") ∧
      ∃ x y s n, child v (.key "secs") = some x ∧ child v (.key "nanos") = some y ∧ x.tryInto (.int .u64) = .ok s ∧ y.tryInto (.int .u32) = .ok n ∧
        nanosOf d = some (s.1 * 1000000000 + n.1)) ∧
    deDuration v ≠ .panic := by
  have two := fun d => two_fields (show "secs" ≠ "nanos" by decide) (dec1 := fun v => (Method.int .u64).on (intVisitor .u64) v)
    (dec2 := fun v => (Method.int .u32).on (intVisitor .u32) v) (e1 := .deserializationError "missing field `secs`")
    (e2 := .deserializationError "missing field `nanos`") hu d
  change ∀ d, deAttrs true durationFields v = .ok d ↔ _ at two
  constructor
  · intro d
    unfold deDuration
    rw [bind_eq_ok]
    constructor
    · rintro ⟨d0, h1, h2⟩
      obtain ⟨hm, hk, x, y, a, b, hx, hy, ha, hb, rfl⟩ := (two d0).1 h1
      obtain ⟨s, hs, rfl⟩ := (int_on (by decide) (by decide) x a).1 ha
      obtain ⟨n, hn, rfl⟩ := (int_on (by decide) (by decide) y b).1 hb
      exact ⟨hm, hk, x, y, s, n, hx, hy, hs, hn, (durationNew_ok s n d).1 h2⟩
    · rintro ⟨hm, hk, x, y, s, n, hx, hy, hs, hn, hd⟩
      exact ⟨_, (two _).2 ⟨hm, hk, x, y, _, _, hx, hy, (int_on (by decide) (by decide) x _).2 ⟨s, hs, rfl⟩,
        (int_on (by decide) (by decide) y _).2 ⟨n, hn, rfl⟩, rfl⟩, (durationNew_ok s n d).2 hd⟩
  · intro h
    unfold deDuration at h
    rw [bind_eq_panic] at h
    rcases h with h | ⟨d0, h1, h2⟩
    · refine (C90_nonmap_no_panic true durationFields v).2 ?_ h
      intro f hf
      have hint : ∀ t x, (Method.int t).on (intVisitor t) x ≠ .panic := by
        intro t x hp
        refine absurd (((C92_panics (.int t) x).2 Data (intVisitor t) ?_).1 hp) (by intro h; cases h)
        intro c hc
        cases c <;> first | (cases hc; done) | skip
        simp only [reply, intVisitor] at hc
        split at hc
        · cases hc
        · split at hc <;> cases hc
      simp only [durationFields, List.mem_cons, List.not_mem_nil, or_false] at hf
      rcases hf with rfl | rfl
      · exact ⟨hint .u64, by intro h; cases h⟩
      · exact ⟨hint .u32, by intro h; cases h⟩
    · obtain ⟨hm, hk, x, y, a, b, hx, hy, ha, hb, rfl⟩ := (two d0).1 h1
      obtain ⟨s, hs, rfl⟩ := (int_on (by decide) (by decide) x a).1 ha
      obtain ⟨n, hn, rfl⟩ := (int_on (by decide) (by decide) y b).1 hb
      simp only [durationNew] at h2
      split at h2 <;> cases h2

/-- **C93**, durations come back: a duration, serialized into a value, is read from it as the same. -/
theorem C93_duration_roundtrip (d : Data) (k : Int) (h : nanosOf d = some k) : ∃ v, ser d = .ok v ∧ deDuration v = .ok d := by
  unfold nanosOf at h
  split at h
  · rename_i s n
    split at h
    · rename_i hlt
      have hv : ser (.struct [("secs", .int .u64 s), ("nanos", .int .u32 n)]) =
          .ok (.map [("secs", .uInteger s), ("nanos", .uInteger (widen .u64 (by decide) n))]) := rfl
      refine ⟨_, hv, ?_⟩
      have hu : UniqueKeys (.map [("secs", .uInteger s), ("nanos", .uInteger (widen .u64 (by decide) n))]) := uniqueKeys_ser _ _ hv
      have conv : ∀ (t : IntTy) (m : IntOf .u64) (r : IntOf t), r.1 = m.1 → (Value.uInteger m).tryInto (.int t) = .ok r := by
        intro t m r hr
        obtain ⟨r', h1, h2⟩ := (C23_int_to_int t (.uInteger m) m.1 "u64" rfl).1 (by rw [← hr]; exact inRange_self r)
        rw [show (Value.uInteger m).tryInto (.int t) = (Value.uInteger m).tryIntoInt t from rfl, h1, Subtype.ext (h2.trans hr.symm)]
      refine ((C93_duration _ hu).1 _).2 ⟨rfl, ?_, .uInteger s, .uInteger (widen .u64 (by decide) n), s, n, rfl, rfl, conv _ _ _ rfl, conv _ _ _ rfl, ?_⟩
      · intro key x hx
        rw [child_key_map] at hx
        by_cases h1 : key = "secs"
        · exact .inl h1
        · by_cases h2 : key = "nanos"
          · exact .inr h2
          · rw [hmGet_cons, if_neg (fun h => h1 h.symm), hmGet_cons, if_neg (fun h => h2 h.symm)] at hx
            cases hx
      · simp only [nanosOf]
        rw [if_pos hlt]
    · cases h
  · cases h

/-- **C93**, ranges: read exactly from a map with the two entries `start` and `end`, and no other, that can be read as the range's type. -/
theorem C93_range (dec : Decoder) (v : Value) (hu : UniqueKeys v) (d : Data) :
    deRange dec v = .ok d ↔ v.isMap = true ∧ (∀ k x, child v (.key k) = some x → k = "start" ∨ k = "end") ∧
      ∃ x y a b, child v (.key "start") = some x ∧ child v (.key "end") = some y ∧ dec x = .ok a ∧ dec y = .ok b ∧ d = .struct [("start", a), ("end", b)] :=
  two_fields (by decide) hu d

/-! ## What never works -/

/-- **C93**, never: `Result`, `Bound`, `OsString` and `CString` panic whatever the value; a borrowed text (`&str`) is never read, though it is accepted by the compiler,
and fails without panicking. -/
theorem C93_never (v : Value) :
    (∀ name variants vis, deStdEnum name variants vis v = .panic) ∧ (∀ vis, deCString vis v = .panic) ∧ ∃ e, deBorrowedStr v = .err e := by
  refine ⟨fun _ _ _ => rfl, fun _ => rfl, ?_⟩
  show ∃ e, (Outcome.ofExcept (v.tryInto .string) >>= fun _ => (invalidType "a borrowed string" : Outcome ModelError Data)) = .err e
  cases v.tryInto .string with
  | ok s => exact ⟨_, rfl⟩
  | error e => exact ⟨_, rfl⟩

/-! ## From a configuration -/

/-- **C93**, from a configuration: where the last layer with the key holds a text `s` (as the environment's always do), an address is read exactly if `s` parses, a path is
read as `s`, a non-zero integer exactly if `s` converts and is not zero, and no duration, range or set can be read. -/
theorem C93_text (b : Build) (fm : Formats) (calls : List RegCall) (w : World) (skip : Bool) (v : Value)
    (h : (register b fm calls).buildValue w skip = .ok v) (hp : ∀ e ∈ firsts (offers b fm calls), Proper e.2) (k : String)
    (pre : List Value) (s : String) (hs : entriesAt w (firsts (offers b fm calls)) k = pre ++ [.string s]) :
    ∃ x, child v (.key k) = some x ∧ (∀ parse d, deParsed parse x = .ok d ↔ parse s = some d) ∧ dePath x = .ok (.str s) ∧
      (∀ t d, t ≠ .i128 → t ≠ .u128 → (deNonZero t x = .ok d ↔ ∃ n : IntOf t, Value.tryInto (.int t) (.string s) = .ok n ∧ n.1 ≠ 0 ∧ d = .int t n)) ∧
      (∀ d, deDuration x ≠ .ok d) ∧ (∀ dec d, deRange dec x ≠ .ok d) ∧ (∀ same dec d, deSet same dec x ≠ .ok d) := by
  refine ⟨.string s, (C75_section b fm calls w skip v h hp k).2.1 pre _ hs rfl, fun parse d => ?_, rfl, fun t d h1 h2 => C93_nonzero t h1 h2 _ d, ?_, ?_, ?_⟩
  · rw [(C93_parsed parse (.string s) d).1]
    constructor
    · rintro ⟨s', h1, h2⟩
      cases h1
      exact h2
    · intro h; exact ⟨s, rfl, h⟩
  · intro d h; cases h
  · intro dec d h; cases h
  · intro same dec d h; cases h

/-! ### Examples -/

example : deDuration (.map [("nanos", .string "1500000000"), ("secs", .integer ⟨2, by decide⟩)]) =
    .ok (.struct [("secs", .int .u64 ⟨3, by decide⟩), ("nanos", .int .u32 ⟨500000000, by decide⟩)]) := rfl
/-- The seconds are at their limit and the nanoseconds carry. -/
example (d : Data) : deDuration (.map [("secs", .uInteger ⟨2 ^ 64 - 1, by decide⟩), ("nanos", .integer ⟨1000000000, by decide⟩)]) ≠ .ok d := by intro h; cases h
example : nanosOf (.struct [("secs", .int .u64 ⟨3, by decide⟩), ("nanos", .int .u32 ⟨5, by decide⟩)]) = some 3000000005 := rfl
/-- An extra entry, e.g. from another layer. -/
example (d : Data) : deDuration (.map [("secs", .integer ⟨1, by decide⟩), ("nanos", .integer ⟨0, by decide⟩), ("millis", .integer ⟨0, by decide⟩)]) ≠ .ok d := by
  intro h; cases h
example : deNonZero .u8 (.string "7") = .ok (.int .u8 ⟨7, by decide⟩) := rfl
example (d : Data) : deNonZero .u8 (.boolean false) ≠ .ok d := by intro h; cases h
/-- An equivalence as `C93_set` asks for: equality of texts. -/
def exSameText (a b : Data) : Bool := match a, b with
  | .str s, .str t => s == t
  | .str _, _ => false
  | _, .str _ => false
  | _, _ => true
example : (∀ a, exSameText a a = true) ∧ (∀ a b, exSameText a b = true → exSameText b a = true) ∧
    ∀ a b c, exSameText a b = true → exSameText b c = true → exSameText a c = true := by
  refine ⟨fun a => ?_, fun a b h => ?_, fun a b c h1 h2 => ?_⟩
  · unfold exSameText
    split <;> simp_all
  · unfold exSameText at h ⊢
    split at h <;> simp_all
  · unfold exSameText at *
    split at h1 <;> split at h2 <;> simp_all
example : deSet exSameText (de (fun _ _ => .panic) .string) (.array [.string "a", .integer ⟨1, by decide⟩, .string "a", .string "1"]) =
    .ok (.seq [.str "a", .str "1"]) := rfl

/-! ### The theorems on these values -/
example (d : Data) : deNonZero .u8 (.string "0") ≠ .ok d := by
  intro h
  obtain ⟨n, h1, h2, -⟩ := (C93_nonzero .u8 (by decide) (by decide) (.string "0") d).1 h
  cases h1
  exact h2 rfl
/-- A parser that takes only `127.0.0.1`. -/
example : deParsed (fun s => if s = "127.0.0.1" then some (.str s) else none) (.string "127.0.0.1") = .ok (.str "127.0.0.1") ∧
    dePath (.integer ⟨8, by decide⟩) = .ok (.str "8") :=
  ⟨(C93_parsed _ _ _).1.2 ⟨"127.0.0.1", rfl, rfl⟩, (C93_parsed (fun _ => none) _ _).2.2 ⟨"8", rfl, rfl⟩⟩
theorem exDuration_unique : UniqueKeys (.map [("nanos", .string "1500000000"), ("secs", .integer ⟨2, by decide⟩)]) := by
  simp [UniqueKeys, UniqueKeysMap, UniqueKeysEntry]
example : ∃ x y s n, child (.map [("nanos", .string "1500000000"), ("secs", .integer ⟨2, by decide⟩)]) (.key "secs") = some x ∧
    child (.map [("nanos", .string "1500000000"), ("secs", .integer ⟨2, by decide⟩)]) (.key "nanos") = some y ∧
    Value.tryInto (.int .u64) x = .ok s ∧ Value.tryInto (.int .u32) y = .ok n ∧
    nanosOf (.struct [("secs", .int .u64 ⟨3, by decide⟩), ("nanos", .int .u32 ⟨500000000, by decide⟩)]) = some (s.1 * 1000000000 + n.1) :=
  (((C93_duration _ exDuration_unique).1 (.struct [("secs", .int .u64 ⟨3, by decide⟩), ("nanos", .int .u32 ⟨500000000, by decide⟩)])).1 rfl).2.2
example : ∃ v, ser (.struct [("secs", .int .u64 ⟨3, by decide⟩), ("nanos", .int .u32 ⟨5, by decide⟩)]) = .ok v ∧
    deDuration v = .ok (.struct [("secs", .int .u64 ⟨3, by decide⟩), ("nanos", .int .u32 ⟨5, by decide⟩)]) := C93_duration_roundtrip _ 3000000005 rfl
example : deRange (de (fun _ _ => .panic) (.int .u8)) (.map [("end", .string "9"), ("start", .integer ⟨2, by decide⟩)]) =
    .ok (.struct [("start", .int .u8 ⟨2, by decide⟩), ("end", .int .u8 ⟨9, by decide⟩)]) := by
  refine (C93_range _ _ (by simp [UniqueKeys, UniqueKeysMap, UniqueKeysEntry]) _).2 ⟨rfl, ?_, _, _, _, _, rfl, rfl, rfl, rfl, rfl⟩
  intro k x h
  rw [child_key_map] at h
  have := hmGet_mem h
  simp only [List.mem_cons, List.not_mem_nil, or_false, Prod.mk.injEq] at this
  rcases this with ⟨rfl, -⟩ | ⟨rfl, -⟩ <;> simp
/-- A text in the last layer that has the key. -/
example : ∃ x, child (.map [("timeout", .string "5s")]) (.key "timeout") = some x ∧ dePath x = .ok (.str "5s") ∧ ∀ d, deDuration x ≠ .ok d := by
  obtain ⟨x, h1, -, h2, -, h3, -⟩ := C93_text exB1 exFormats [.memory "low" (.map [("timeout", .none)]), .memory "high" (.map [("timeout", .string "5s")])] exDisk false
    (.map [("timeout", .string "5s")]) rfl (by
      intro e he
      obtain ⟨c, hc, ho⟩ := List.mem_filterMap.1 (mem_firsts he)
      simp only [List.mem_cons, List.not_mem_nil, or_false] at hc
      apply C08_builtin_proper exB1 exFormats c e _ _ ho
      · rcases hc with rfl | rfl <;> trivial
      · rcases hc with rfl | rfl <;> intro n v hv <;> cases hv <;> simp [UniqueKeys, UniqueKeysMap, UniqueKeysEntry]) "timeout" [.none] "5s" rfl
  exact ⟨x, h1, h2, h3⟩

end Verif.Props
