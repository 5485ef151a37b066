import Verif.Lemmas.SerdeRound
/-! The typed round trip through a `Value`. -/
namespace Verif
open Spec Props

/-! ## Lists -/

theorem ev_list {α : Type} {P : α → Nat → Prop} (l : List α) (h : ∀ a ∈ l, ∃ k0, ∀ k, k0 ≤ k → P a k) :
    ∃ k0, ∀ k, k0 ≤ k → ∀ a ∈ l, P a k := by
  induction l with
  | nil => exact ⟨0, by simp⟩
  | cons a r ih =>
    obtain ⟨k1, h1⟩ := h a List.mem_cons_self
    obtain ⟨k2, h2⟩ := ih (fun b hb => h b (List.mem_cons_of_mem _ hb))
    refine ⟨max k1 k2, fun k hk b hb => ?_⟩
    rcases List.mem_cons.1 hb with rfl | hb
    · exact h1 k (le_trans (le_max_left _ _) hk)
    · exact h2 k (le_trans (le_max_right _ _) hk) b hb

theorem ev_lt {P : Nat → Nat → Prop} (n : Nat) (h : ∀ i, i < n → ∃ k0, ∀ k, k0 ≤ k → P i k) :
    ∃ k0, ∀ k, k0 ≤ k → ∀ i, i < n → P i k := by
  obtain ⟨k0, h0⟩ := ev_list (List.range n) (fun i hi => h i (List.mem_range.1 hi))
  exact ⟨k0, fun k hk i hi => h0 k hk i (List.mem_range.2 hi)⟩

theorem list_choose {α : Type} {P : Nat → α → Prop} (n : Nat) (h : ∀ i, i < n → ∃ a, P i a) :
    ∃ l : List α, l.length = n ∧ ∀ (i : Nat) a, l[i]? = some a → P i a := by
  refine ⟨List.ofFn (fun i : Fin n => (h i.1 i.2).choose), List.length_ofFn, ?_⟩
  intro i a ha
  rw [List.getElem?_ofFn] at ha
  split at ha
  · rename_i hi
    rw [Option.some.injEq] at ha
    rw [← ha]; exact (h i hi).choose_spec
  · cases ha

theorem get_of_lt {α : Type} {l : List α} {i : Nat} (h : i < l.length) : ∃ a, l[i]? = some a :=
  ⟨_, List.getElem?_eq_getElem h⟩

theorem lt_of_get {α : Type} {l : List α} {i : Nat} {a : α} (h : l[i]? = some a) : i < l.length :=
  (List.getElem?_eq_some_iff.1 h).1

/-! ## Sequences and tuples, field by field -/

theorem de_seq_ok (refs : Nat → Decoder) (t : Ty) (xs : List Value) (d : Data) :
    de refs (.seq t) (.array xs) = .ok d ↔ ∃ ds, d = .seq ds ∧ ds.length = xs.length ∧
      ∀ (i : Nat) x y, xs[i]? = some x → ds[i]? = some y → de refs t x = .ok y := by
  rw [de, bind_eq_ok]
  simp only [deVecLoop_ok, List.nil_append, Outcome.ok.injEq]
  constructor
  · rintro ⟨_, ⟨ys, h, rfl⟩, rfl⟩
    exact ⟨_, rfl, h.length_eq.symm, (forall2_index h).2⟩
  · rintro ⟨ds, rfl, h1, h2⟩
    exact ⟨ds, ⟨ds, forall2_of_index h1.symm h2, rfl⟩, rfl⟩

theorem tupleLoop_ok (refs : Nat → Decoder) (ts : List Ty) (xs : List Value) (ds : List Data) :
    deTupleLoop 0 [] (decoders refs ts) xs = .ok ds ↔ ts.length ≤ xs.length ∧ ds.length = ts.length ∧
      ∀ (i : Nat) t x y, ts[i]? = some t → xs[i]? = some x → ds[i]? = some y → de refs t x = .ok y := by
  rw [deTupleLoop_ok]
  simp only [List.nil_append, decoders_length]
  constructor
  · rintro ⟨_, rfl, h1, h2, h3⟩
    exact ⟨h2, h1, fun i t x y ht hx hy => h3 i (de refs t) x y (by rw [decoders_get, ht]; rfl) hx hy⟩
  · rintro ⟨h1, h2, h3⟩
    refine ⟨ds, rfl, h2, h1, fun i dec x y hd hx hy => ?_⟩
    rw [decoders_get, Option.map_eq_some_iff] at hd
    obtain ⟨t, ht, rfl⟩ := hd
    exact h3 i t x y ht hx hy

theorem de_tuple_ok (refs : Nat → Decoder) (ts : List Ty) (xs : List Value) (d : Data) :
    de refs (.tuple ts) (.array xs) = .ok d ↔ ∃ ds, d = .tuple ds ∧ ts.length ≤ xs.length ∧ ds.length = ts.length ∧
      ∀ (i : Nat) t x y, ts[i]? = some t → xs[i]? = some x → ds[i]? = some y → de refs t x = .ok y := by
  rw [de, bind_eq_ok]
  simp only [tupleLoop_ok, Outcome.ok.injEq]
  constructor
  · rintro ⟨ds, h, rfl⟩; exact ⟨ds, rfl, h⟩
  · rintro ⟨ds, rfl, h⟩; exact ⟨ds, h, rfl⟩

theorem de_tupleStruct_ok (refs : Nat → Decoder) (ts : List Ty) (xs : List Value) (d : Data) :
    de refs (.tupleStruct ts) (.array xs) = .ok d ↔ ∃ ds, d = .tupleStruct ds ∧ ts.length ≤ xs.length ∧
      ds.length = ts.length ∧
      ∀ (i : Nat) t x y, ts[i]? = some t → xs[i]? = some x → ds[i]? = some y → de refs t x = .ok y := by
  rw [de, bind_eq_ok]
  simp only [tupleLoop_ok, Outcome.ok.injEq]
  constructor
  · rintro ⟨ds, h, rfl⟩; exact ⟨ds, rfl, h⟩
  · rintro ⟨ds, rfl, h⟩; exact ⟨ds, h, rfl⟩

/-! ## Values as data -/

theorem toDataList_eq (xs : List Value) : toDataList xs = xs.map Value.toData := by
  induction xs with
  | nil => rw [toDataList]; rfl
  | cons x r ih => rw [toDataList, ih]; rfl

theorem toDataEntries_eq (m : Entries) : toDataEntries m = m.map fun e => (Data.str e.1, e.2.toData) := by
  induction m with
  | nil => rw [toDataEntries]; rfl
  | cons x r ih => rw [toDataEntries, ih, toDataEntry]; rfl

theorem toDataEntries_keys (m : Entries) :
    toDataEntries m = (m.map fun e => (Key.str e.1, e.2.toData)).map fun e => (e.1.toData, e.2) := by
  rw [toDataEntries_eq, List.map_map]; rfl

theorem keyGet_str (m : Entries) (k : Key) :
    keyGet (m.map fun e => (Key.str e.1, e.2.toData)) k =
      match k with | .str s => (hmGet m s).map Value.toData | _ => none := by
  induction m with
  | nil => cases k <;> rfl
  | cons e r ih =>
    simp only [keyGet, List.map_cons, List.find?_cons] at ih ⊢
    cases k with
    | str s =>
      by_cases h : e.1 = s
      · simp [hmGet_cons, h]
      · have : (Key.str e.1 == Key.str s) = false := by simpa using h
        simp only [this, hmGet_cons, h, if_false]; exact ih
    | bool b => rw [show (Key.str e.1 == Key.bool b) = false from beq_eq_false_iff_ne.2 (by simp)]; exact ih
    | int t n => rw [show (Key.str e.1 == Key.int t n) = false from beq_eq_false_iff_ne.2 (by simp)]; exact ih
    | char c => rw [show (Key.str e.1 == Key.char c) = false from beq_eq_false_iff_ne.2 (by simp)]; exact ih

theorem dsame_toData (v : Value) : ∀ w, Same v w → DSame v.toData w.toData := by
  induction v using Value.ind with
  | array xs ih =>
    intro w h
    obtain ⟨ys, rfl⟩ := same_array_left h
    rw [same_array] at h
    rw [Value.toData, Value.toData, toDataList_eq, toDataList_eq]
    refine dsame_seq (forall2_of_index (by simpa using h.1) ?_)
    intro i a b ha hb
    rw [List.getElem?_map, Option.map_eq_some_iff] at ha hb
    obtain ⟨x, hx, rfl⟩ := ha
    obtain ⟨y, hy, rfl⟩ := hb
    exact ih x (List.mem_of_getElem? hx) y (h.2 i x y hx hy)
  | map m ih =>
    intro w h
    obtain ⟨n, rfl⟩ := same_map_left h
    rw [same_map] at h
    rw [Value.toData, Value.toData, toDataEntries_keys, toDataEntries_keys]
    refine dsame_map ?_
    intro k
    rw [keyGet_str, keyGet_str]
    cases k with
    | str s =>
      simp only [Option.map_eq_none_iff, Option.map_eq_some_iff]
      refine ⟨(h s).1, ?_⟩
      rintro _ _ ⟨x, hx, rfl⟩ ⟨y, hy, rfl⟩
      exact ih (s, x) (hmGet_mem hx) y ((h s).2 x y hx hy)
    | _ => simp
  | _ => intro w h; rw [same_scalar rfl h]; exact DSame.refl _

/-- No 128-bit integer inside. -/
def No128 (v : Value) : Prop := ∀ p, (∀ n, view v p ≠ some (.longInteger n)) ∧ ∀ n, view v p ≠ some (.uLongInteger n)

theorem no128_array {xs : List Value} : No128 (.array xs) ↔ ∀ x ∈ xs, No128 x := by
  constructor
  · intro h x hx p
    obtain ⟨i, hi⟩ := List.mem_iff_getElem?.1 hx
    have := h (.idx i :: p)
    simpa only [view, child, hi, Option.bind_some] using this
  · intro h p
    cases p with
    | nil => simp [view, head]
    | cons s p =>
      cases s with
      | key k => simp [view, child]
      | idx i =>
        simp only [view, child]
        cases hi : xs[i]? with
        | none => simp
        | some x => exact h x (List.mem_of_getElem? hi) p

theorem no128_map {m : Entries} (hn : (m.map Prod.fst).Nodup) : No128 (.map m) ↔ ∀ e ∈ m, No128 e.2 := by
  constructor
  · intro h e he p
    have := h (.key e.1 :: p)
    simpa only [view_key_map, hmGet_of_mem hn (show (e.1, e.2) ∈ m from he), Option.bind_some] using this
  · intro h p
    cases p with
    | nil => simp [view, head]
    | cons s p =>
      cases s with
      | idx i => simp [view, child]
      | key k =>
        rw [view_key_map]
        cases hi : hmGet m k with
        | none => simp
        | some x => exact h _ (hmGet_mem hi) p

theorem serializeValue_cases (v : Value) (hu : UniqueKeys v) :
    (No128 v ∧ ser v.toData = .ok v) ∨ (¬ No128 v ∧ ∃ msg, ser v.toData = .err (.serializationError msg)) := by
  induction v using Value.ind with
  | array xs ih =>
    rw [uniqueKeys_array] at hu
    rw [no128_array, Value.toData, ser, toDataList_eq]
    have : ∀ (acc : List Value),
        ((∀ x ∈ xs, No128 x) ∧ serElems (.array acc) (xs.map Value.toData) = .ok (.array (acc ++ xs))) ∨
        (¬ (∀ x ∈ xs, No128 x) ∧ ∃ msg, serElems (.array acc) (xs.map Value.toData) = .err (.serializationError msg)) := by
      induction xs with
      | nil => intro acc; left; simp [serElems]
      | cons x r ih2 =>
        intro acc
        rw [List.map_cons, serElems]
        rcases ih x List.mem_cons_self (hu x List.mem_cons_self) with ⟨h1, h2⟩ | ⟨h1, msg, h2⟩
        · rw [h2, Outcome.bind_ok, pushQ_array, Outcome.bind_ok]
          rcases ih2 (fun y hy => ih y (List.mem_cons_of_mem _ hy)) (fun y hy => hu y (List.mem_cons_of_mem _ hy))
            (acc ++ [x]) with ⟨h3, h4⟩ | ⟨h3, msg, h4⟩
          · left
            refine ⟨?_, by rw [h4]; simp⟩
            intro y hy
            rcases List.mem_cons.1 hy with rfl | hy
            exacts [h1, h3 y hy]
          · right
            exact ⟨fun h => h3 fun y hy => h y (List.mem_cons_of_mem _ hy), msg, h4⟩
        · right
          rw [h2]
          exact ⟨fun h => h1 (h x List.mem_cons_self), msg, rfl⟩
    exact this []
  | map m ih =>
    rw [uniqueKeys_map] at hu
    rw [no128_map hu.1, Value.toData, ser, toDataEntries_eq]
    have : ∀ (acc : Entries), ((acc ++ m).map Prod.fst).Nodup →
        ((∀ e ∈ m, No128 e.2) ∧ serEntries ⟨.map acc, none⟩ (m.map fun e => (Data.str e.1, e.2.toData)) =
          .ok ⟨.map (acc ++ m), none⟩) ∨
        (¬ (∀ e ∈ m, No128 e.2) ∧
          ∃ msg, serEntries ⟨.map acc, none⟩ (m.map fun e => (Data.str e.1, e.2.toData)) =
            .err (.serializationError msg)) := by
      replace hu := hu.2
      induction m with
      | nil => intro acc _; left; simp [serEntries]
      | cons x r ih2 =>
        intro acc hacc
        rw [List.map_cons, serEntries]
        rcases ih x List.mem_cons_self (hu x List.mem_cons_self) with ⟨h1, h2⟩ | ⟨h1, msg, h2⟩
        · have e1 : serEntry ⟨.map acc, none⟩ (Data.str x.1, x.2.toData) = .ok ⟨.map (acc ++ [x]), none⟩ := by
            rw [serEntry, ser, h2]
            show Outcome.ok _ = _
            rw [hmInsert_fresh (k := x.1)]
            intro hx
            rw [List.map_append, List.nodup_append] at hacc
            exact hacc.2.2 _ hx x.1 (by simp) rfl
          rw [e1, Outcome.bind_ok]
          rcases ih2 (fun y hy => ih y (List.mem_cons_of_mem _ hy)) (fun y hy => hu y (List.mem_cons_of_mem _ hy))
            (acc ++ [x]) (by simpa using hacc) with ⟨h3, h4⟩ | ⟨h3, msg, h4⟩
          · left
            refine ⟨?_, by rw [h4]; simp⟩
            intro y hy
            rcases List.mem_cons.1 hy with rfl | hy
            exacts [h1, h3 y hy]
          · right
            exact ⟨fun h => h3 fun y hy => h y (List.mem_cons_of_mem _ hy), msg, h4⟩
        · right
          refine ⟨fun h => h1 (h x List.mem_cons_self), msg, ?_⟩
          rw [serEntry, ser, h2]; rfl
    rcases this [] (by simpa using hu.1) with ⟨h1, h2⟩ | ⟨h1, msg, h2⟩
    · left; exact ⟨h1, by rw [show SerMap.new = ⟨.map [], none⟩ from rfl, h2]; rfl⟩
    · right; exact ⟨h1, msg, by rw [show SerMap.new = ⟨.map [], none⟩ from rfl, h2]; rfl⟩
  | longInteger n =>
    right
    refine ⟨fun h => (h []).1 n rfl, "i128 is not supported", by rw [Value.toData, ser]⟩
  | uLongInteger n =>
    right
    refine ⟨fun h => (h []).2 n rfl, "u128 is not supported", by rw [Value.toData, ser]⟩
  | integer n =>
    left
    refine ⟨fun p => ?_, by rw [Value.toData]; exact ser_int (t := .i64) ⟨by decide, by decide⟩ n⟩
    cases p with
    | nil => simp [view, head]
    | cons s p => cases s <;> simp [view, child]
  | uInteger n =>
    left
    refine ⟨fun p => ?_, by rw [Value.toData]; exact ser_int (t := .u64) ⟨by decide, by decide⟩ n⟩
    cases p with
    | nil => simp [view, head]
    | cons s p => cases s <;> simp [view, child]
  | _ =>
    left
    refine ⟨fun p => ?_, by rw [Value.toData, ser]; try rfl⟩
    cases p with
    | nil => simp [view, head]
    | cons s p => cases s <;> simp [view, child]

/-! ## The round trip -/

theorem ser_not_none {structs : Nat → List (String × Ty)} {t : Ty} {d : Data} (ht : HasType structs t d) :
    Nullable t = false → ∀ v, ser d = .ok v → v ≠ .none := by
  induction ht with
  | int t n =>
    intro _ v h hv
    subst hv
    cases t <;> simp [ser, Value.ofInt] at h
  | value | unit | unitStruct | none | some => intro h; simp [Nullable] at h
  | bool | f32 | f64 | char | string =>
    intro _ v h hv; subst hv; rw [ser] at h; cases h
  | bytes bs => intro _ v h hv; subst hv; rw [ser, show Value.newArray = .array [] from rfl, serBytes_ok] at h; cases h
  | newtype _ ih => intro hn v h; rw [ser] at h; exact ih hn v h
  | seq => intro _ v h; obtain ⟨_, _, rfl⟩ := ser_seq.1 h; simp
  | tuple => intro _ v h; obtain ⟨_, _, rfl⟩ := ser_tuple.1 h; simp
  | tupleStruct => intro _ v h; obtain ⟨_, _, rfl⟩ := ser_tupleStruct.1 h; simp
  | map => intro _ v h; obtain ⟨_, _, rfl⟩ := ser_map.1 h; simp
  | struct => intro _ v h; obtain ⟨_, _, rfl⟩ := ser_struct.1 h; simp
  | ref h ih =>
    intro _ v hv
    exact ih rfl v hv

/-- What the round trip needs of one type and one piece of data. -/
def Back (structs : Nat → List (String × Ty)) (t : Ty) (d : Data) : Prop :=
  ∀ v, ser d = .ok v → ∀ v', Same v v' → UniqueKeys v' → ∃ k0, ∀ k, k0 ≤ k → ∃ d', deAt structs k t v' = .ok d' ∧ DSame d d'

theorem back_scalar {structs : Nat → List (String × Ty)} {t : Ty} {d : Data} {v : Value} (hv : ser d = .ok v)
    (hs : isScalar v = true) (h : ∀ refs, de refs t v = .ok d) : Back structs t d := by
  intro w hw v' hv' _
  rw [hv] at hw; cases hw
  rw [same_scalar hs hv']
  exact ⟨0, fun k _ => ⟨d, h _, DSame.refl d⟩⟩

theorem back_tuple {structs : Nat → List (String × Ty)} {ts : List Ty} {ds : List Data} (hl : ds.length = ts.length)
    (ih : ∀ (i : Nat) t d, ts[i]? = some t → ds[i]? = some d → Back structs t d) {vs ws : List Value}
    (hs : List.Forall₂ (fun d x => ser d = .ok x) ds vs) (hsame : Same (.array vs) (.array ws))
    (hu : UniqueKeys (.array ws)) : ∃ k0, ∀ k, k0 ≤ k → ∃ ds', ts.length ≤ ws.length ∧ ds'.length = ts.length ∧
      (∀ (i : Nat) t x y, ts[i]? = some t → ws[i]? = some x → ds'[i]? = some y → deAt structs k t x = .ok y) ∧
      List.Forall₂ DSame ds ds' := by
  rw [same_array] at hsame
  rw [uniqueKeys_array] at hu
  obtain ⟨l1, h1⟩ := forall2_index hs
  obtain ⟨l2, h2⟩ := hsame
  have step : ∀ i, i < ts.length → ∃ k0, ∀ k, k0 ≤ k → ∃ y, ∀ t d x, ts[i]? = some t → ds[i]? = some d →
      ws[i]? = some x → deAt structs k t x = .ok y ∧ DSame d y := by
    intro i hi
    obtain ⟨t, ht⟩ := get_of_lt hi
    obtain ⟨d, hd⟩ := get_of_lt (show i < ds.length by omega)
    obtain ⟨v, hv⟩ := get_of_lt (show i < vs.length by omega)
    obtain ⟨w, hw⟩ := get_of_lt (show i < ws.length by omega)
    obtain ⟨k0, h0⟩ := ih i t d ht hd v (h1 i d v hd hv) w (h2 i v w hv hw) (hu w (List.mem_of_getElem? hw))
    refine ⟨k0, fun k hk => ?_⟩
    obtain ⟨y, hy⟩ := h0 k hk
    refine ⟨y, fun t' d' x' e1 e2 e3 => ?_⟩
    rw [ht] at e1; rw [hd] at e2; rw [hw] at e3
    cases e1; cases e2; cases e3
    exact hy
  obtain ⟨k0, h0⟩ := ev_lt _ step
  refine ⟨k0, fun k hk => ?_⟩
  obtain ⟨ds', hl', hd'⟩ := list_choose _ (h0 k hk)
  refine ⟨ds', by omega, hl', fun i t x y ht hx hy => ?_, forall2_of_index (by omega) fun i d y hd hy => ?_⟩
  · obtain ⟨d, hd⟩ := get_of_lt (show i < ds.length by have := lt_of_get ht; omega)
    exact (hd' i y hy t d x ht hd hx).1
  · have hi := lt_of_get hy
    obtain ⟨t, ht⟩ := get_of_lt (show i < ts.length by omega)
    obtain ⟨w, hw⟩ := get_of_lt (show i < ws.length by omega)
    exact (hd' i y hy t d w ht hd hw).2

theorem back {structs : Nat → List (String × Ty)} (hstr : ∀ n, Survives (.struct (structs n))) {t : Ty} {d : Data}
    (ht : HasType structs t d) : Survives t → Back structs t d := by
  induction ht with
  | bool b =>
    intro _
    exact back_scalar (v := .boolean b) (by rw [ser]; rfl) rfl (fun refs => by rw [de]; rfl)
  | int t n =>
    intro h
    cases h with
    | int h =>
      refine back_scalar (ser_int h n) (by cases t <;> rfl) (fun refs => ?_)
      rw [de, deInt_eq h]
      show (Outcome.ofExcept ((Value.ofInt t n).tryIntoInt t) >>= _) = _
      rw [(C24_int_roundtrip t n).1]; rfl
  | f32 x =>
    intro _
    refine back_scalar (v := Value.ofF32 x) (by rw [ser]) rfl (fun refs => ?_)
    rw [de]
    obtain ⟨z, h1, h2⟩ := (C24_scalar_roundtrip true (F64.ofF32 x) x "").2.2.2.1
    rw [h1]
    show Outcome.ok (Data.f32 (F32.ofF64 z)) = _
    rw [h2]
  | f64 x =>
    intro _
    exact back_scalar (v := .float x) (by rw [ser]; rfl) rfl (fun refs => by rw [de]; rfl)
  | char c =>
    intro _
    exact back_scalar (v := .string (String.ofList [c])) (by rw [ser]; rfl) rfl
      (fun refs => by rw [de]; simp [Value.tryInto, Value.tryIntoChar])
  | string s =>
    intro _
    exact back_scalar (v := .string s) (by rw [ser]; rfl) rfl (fun refs => by rw [de]; rfl)
  | unit => intro _; exact back_scalar (v := .none) (by rw [ser]) rfl (fun refs => by rw [de])
  | unitStruct => intro _; exact back_scalar (v := .none) (by rw [ser]) rfl (fun refs => by rw [de])
  | bytes bs => intro h; cases h
  | value v hv =>
    intro _ w hw v' hs hu
    rcases serializeValue_cases v hv with ⟨_, h⟩ | ⟨_, msg, h⟩
    · rw [h] at hw; cases hw
      exact ⟨0, fun k _ => ⟨v'.toData, by rw [deAt, de, deValue_ok v' hu]; rfl, dsame_toData v v' hs⟩⟩
    · rw [h] at hw; cases hw
  | none t => intro _; exact back_scalar (v := .none) (by rw [ser]) rfl (fun refs => by rw [de])
  | @some t d hd ih =>
    intro h
    cases h with
    | option h1 h2 =>
      intro v hv v' hs hu
      rw [ser] at hv
      have hne := ser_not_none hd h2 v hv
      obtain ⟨k0, h0⟩ := ih h1 v hv v' hs hu
      refine ⟨k0, fun k hk => ?_⟩
      obtain ⟨d', h3, h4⟩ := h0 k hk
      refine ⟨.some d', ?_, dsame_some h4⟩
      have hne' : v' ≠ .none := by
        rintro rfl
        exact hne (same_scalar rfl (fun p => (hs p).symm))
      rw [deAt] at h3 ⊢
      rw [de]
      · rw [h3]; rfl
      · exact fun e => absurd e hne'
  | newtype hd ih =>
    intro h
    cases h with
    | newtype h1 =>
      intro v hv v' hs hu
      rw [ser] at hv
      obtain ⟨k0, h0⟩ := ih h1 v hv v' hs hu
      refine ⟨k0, fun k hk => ?_⟩
      obtain ⟨d', h3, h4⟩ := h0 k hk
      refine ⟨.newtypeStruct d', ?_, dsame_newtype h4⟩
      rw [deAt] at h3 ⊢
      rw [de, h3]; rfl
  | @seq t ds hd ih =>
    intro h
    cases h with
    | seq h1 =>
      intro v hv v' hs hu
      obtain ⟨vs, h2, rfl⟩ := ser_seq.1 hv
      obtain ⟨ws, rfl⟩ := same_array_left hs
      obtain ⟨k0, h0⟩ := back_tuple (ts := List.replicate ds.length t) (by simp)
        (fun i t' d ht hd' => by
          rw [List.getElem?_replicate] at ht
          split at ht <;> cases ht
          exact ih d (List.mem_of_getElem? hd') h1) h2 hs hu
      refine ⟨k0, fun k hk => ?_⟩
      obtain ⟨ds', e1, e2, e3, e4⟩ := h0 k hk
      refine ⟨.seq ds', ?_, dsame_seq e4⟩
      rw [deAt, de_seq_ok]
      have hl : vs.length = ws.length := (same_array.1 hs).1
      have hl2 := h2.length_eq
      simp only [List.length_replicate] at e1 e2
      refine ⟨ds', rfl, by omega, fun i x y hx hy => e3 i t x y ?_ hx hy⟩
      rw [List.getElem?_replicate, if_pos (by have := lt_of_get hy; omega)]
  | @tuple ts ds hl hd ih =>
    intro h
    cases h with
    | tuple h1 =>
      intro v hv v' hs hu
      obtain ⟨vs, h2, rfl⟩ := ser_tuple.1 hv
      obtain ⟨ws, rfl⟩ := same_array_left hs
      obtain ⟨k0, h0⟩ := back_tuple hl (fun i t d ht hd' => ih i t d ht hd' (h1 t (List.mem_of_getElem? ht))) h2 hs hu
      refine ⟨k0, fun k hk => ?_⟩
      obtain ⟨ds', e1, e2, e3, e4⟩ := h0 k hk
      exact ⟨.tuple ds', (de_tuple_ok _ _ _ _).2 ⟨ds', rfl, e1, e2, e3⟩, dsame_tuple e4⟩
  | @tupleStruct ts ds hl hd ih =>
    intro h
    cases h with
    | tupleStruct h1 =>
      intro v hv v' hs hu
      obtain ⟨vs, h2, rfl⟩ := ser_tupleStruct.1 hv
      obtain ⟨ws, rfl⟩ := same_array_left hs
      obtain ⟨k0, h0⟩ := back_tuple hl (fun i t d ht hd' => ih i t d ht hd' (h1 t (List.mem_of_getElem? ht))) h2 hs hu
      refine ⟨k0, fun k hk => ?_⟩
      obtain ⟨ds', e1, e2, e3, e4⟩ := h0 k hk
      exact ⟨.tupleStruct ds', (de_tupleStruct_ok _ _ _ _).2 ⟨ds', rfl, e1, e2, e3⟩, dsame_tupleStruct e4⟩
  | @map kt t es hk hn hd ih =>
    intro h
    cases h with
    | map hg h1 =>
      intro v hv v' hs hu
      obtain ⟨kvs, h2, hn2, rfl⟩ := (ser_keyMap hg hk hn).1 hv
      obtain ⟨n, rfl⟩ := same_map_left hs
      rw [same_map] at hs
      rw [uniqueKeys_map] at hu
      have step : ∀ e ∈ n, ∃ k0, ∀ k, k0 ≤ k → ∃ kd : Key × Data, e.1 = keyText kd.1 ∧ deKey kt e.1 = .ok kd.1 ∧
          deAt structs k t e.2 = .ok kd.2 ∧ ∃ x, (kd.1, x) ∈ es ∧ DSame x kd.2 := by
        intro e he
        have hw := hmGet_of_mem hu.1 (show (e.1, e.2) ∈ n from he)
        have : ∃ x, hmGet kvs e.1 = Option.some x := by
          rw [← Option.ne_none_iff_exists']
          intro hx
          rw [(hs e.1).1.1 hx] at hw; cases hw
        obtain ⟨x, hx⟩ := this
        obtain ⟨e', he', h3, h4⟩ := forall2_right h2 _ (hmGet_mem hx)
        obtain ⟨k0, h0⟩ := ih e' he' h1 x h4 e.2 ((hs e.1).2 x e.2 hx hw) (hu.2 e he)
        refine ⟨k0, fun k hk0 => ?_⟩
        obtain ⟨d', h5, h6⟩ := h0 k hk0
        exact ⟨(e'.1, d'), h3, by rw [show e.1 = keyText e'.1 from h3]; exact deKey_keyText hg (hk e' he'), h5, e'.2, he', h6⟩
      obtain ⟨k0, h0⟩ := ev_list n step
      refine ⟨k0, fun k hk0 => ?_⟩
      obtain ⟨kds, h3⟩ := forall2_exists (h0 k hk0)
      have ek : n.map Prod.fst = (kds.map Prod.fst).map keyText := by
        clear hs hu step h0
        induction h3 with
        | nil => rfl
        | cons h1 _ ih => simp only [List.map_cons, h1.1, ih]
      have hn3 : (kds.map Prod.fst).Nodup := by
        refine List.Nodup.of_map keyText ?_
        rw [← ek]; exact hu.1
      refine ⟨_, ?_, dsame_map (as := es) (bs := keyInsAll [] kds) ?_⟩
      · rw [deAt, de, bind_eq_ok]
        exact ⟨_, (deMapLoop_ok kt _ n [] _).2 ⟨kds, h3.imp (fun _ _ h => ⟨h.2.1, h.2.2.1⟩), rfl⟩, rfl⟩
      · intro key
        by_cases hkey : key ∈ kds.map Prod.fst
        · obtain ⟨kd, hkd, rfl⟩ := List.mem_map.1 hkey
          rw [keyGet_insAll_mem kds [] kd.1 kd.2 hn3 hkd]
          obtain ⟨e, he, _, _, _, x, hx, hxs⟩ := forall2_right h3 _ hkd
          rw [keyGet_of_mem hn hx]
          refine ⟨by simp, ?_⟩
          intro a b ha hb
          cases ha; cases hb; exact hxs
        · rw [keyGet_insAll_absent kds [] key hkey]
          have : keyGet es key = Option.none := by
            cases hx : keyGet es key with
            | none => rfl
            | some x =>
              exfalso
              have hmem := keyGet_mem hx
              obtain ⟨kv, hkv, h4, h5⟩ := forall2_left h2 _ hmem
              have h6 := hmGet_of_mem hn2 (show (kv.1, kv.2) ∈ kvs from hkv)
              have : ∃ w, hmGet n kv.1 = Option.some w := by
                rw [← Option.ne_none_iff_exists']
                intro hx
                rw [(hs kv.1).1.2 hx] at h6; cases h6
              obtain ⟨w, hw⟩ := this
              obtain ⟨kd, hkd, h7, h8, _⟩ := forall2_left h3 _ (hmGet_mem hw)
              rw [show kv.1 = keyText key from h4, deKey_keyText hg (hk _ hmem)] at h8
              exact hkey (List.mem_map.2 ⟨kd, hkd, (Outcome.ok.inj h8).symm⟩)
          rw [this]
          refine ⟨by simp [keyGet], ?_⟩
          intro x y hx; cases hx
  | @struct fs ds hl hd ih =>
    intro h
    cases h with
    | struct hn h1 =>
      intro v hv v' hs hu
      obtain ⟨kvs, h2, rfl⟩ := ser_struct.1 hv
      have ek : kvs.map Prod.fst = fs.map Prod.fst := by
        rw [← hl]
        clear hs hv ih hd hl
        induction h2 with
        | nil => rfl
        | cons h1 _ ih => simp only [List.map_cons, h1.1, ih]
      have hn2 : (kvs.map Prod.fst).Nodup := by rw [ek]; exact hn
      rw [insAll_fresh kvs [] (by simpa using hn2), List.nil_append] at hs
      obtain ⟨n, rfl⟩ := same_map_left hs
      rw [same_map] at hs
      rw [uniqueKeys_map] at hu
      obtain ⟨l1, h3⟩ := forall2_index h2
      have l0 : ds.length = fs.length := by simpa using congrArg List.length hl
      have names : ∀ (i : Nat) f d, fs[i]? = Option.some f → ds[i]? = Option.some d → d.1 = f.1 := by
        intro i f d hf hd
        have := congrArg (fun l : List String => l[i]?) hl
        simpa [hf, hd] using this
      have step : ∀ i, i < fs.length → ∃ k0, ∀ k, k0 ≤ k → ∃ nd : String × Data, ∀ f d, fs[i]? = Option.some f →
          ds[i]? = Option.some d → nd.1 = f.1 ∧ (∃ w, hmGet n f.1 = Option.some w ∧ deAt structs k f.2 w = .ok nd.2) ∧
          DSame d.2 nd.2 := by
        intro i hi
        obtain ⟨f, hf⟩ := get_of_lt hi
        obtain ⟨d, hd⟩ := get_of_lt (show i < ds.length by omega)
        obtain ⟨kv, hkv⟩ := get_of_lt (show i < kvs.length by omega)
        obtain ⟨e1, e2⟩ := h3 i d kv hd hkv
        have e3 := names i f d hf hd
        have h6 := hmGet_of_mem hn2 (show (kv.1, kv.2) ∈ kvs from List.mem_of_getElem? hkv)
        have : ∃ w, hmGet n kv.1 = Option.some w := by
          rw [← Option.ne_none_iff_exists']
          intro hx
          rw [(hs kv.1).1.2 hx] at h6; cases h6
        obtain ⟨w, hw⟩ := this
        obtain ⟨k0, h0⟩ := ih i f d hf hd (h1 f (List.mem_of_getElem? hf)) kv.2 e2 w ((hs kv.1).2 _ _ h6 hw)
          (hu.2 _ (hmGet_mem hw))
        refine ⟨k0, fun k hk => ?_⟩
        obtain ⟨d', e4, e5⟩ := h0 k hk
        refine ⟨(f.1, d'), fun f' d'' e6 e7 => ?_⟩
        rw [hf] at e6; rw [hd] at e7; cases e6; cases e7
        exact ⟨rfl, ⟨w, by rw [← e3, ← e1]; exact hw, e4⟩, e5⟩
      obtain ⟨k0, h0⟩ := ev_lt _ step
      refine ⟨k0, fun k hk => ?_⟩
      obtain ⟨ds', hl', hd'⟩ := list_choose _ (h0 k hk)
      refine ⟨.struct ds', ?_, dsame_struct (forall2_of_index (by omega) fun i d y hdi hy => ?_)⟩
      · rw [deAt, de_struct_ok _ _ hn _ hu.1]
        refine ⟨ds', rfl, forall2_of_index (by omega) fun i f y hf hy => ?_⟩
        obtain ⟨d, hd⟩ := get_of_lt (show i < ds.length by have := lt_of_get hf; omega)
        obtain ⟨e1, ⟨w, e2, e3⟩, _⟩ := hd' i y hy f d hf hd
        refine ⟨e1, ?_⟩
        rw [e2]; exact e3
      · obtain ⟨f, hf⟩ := get_of_lt (show i < fs.length by have := lt_of_get hdi; omega)
        obtain ⟨e1, _, e3⟩ := hd' i y hy f d hf hdi
        exact ⟨by rw [e1]; exact names i f d hf hdi, e3⟩
  | @ref n d hd ih =>
    intro _ v hv v' hs hu
    obtain ⟨k0, h0⟩ := ih (hstr n) v hv v' hs hu
    refine ⟨k0 + 1, fun k hk => ?_⟩
    obtain ⟨j, rfl⟩ : ∃ j, k = j + 1 := ⟨k - 1, by omega⟩
    obtain ⟨d', h1, h2⟩ := h0 j (by omega)
    refine ⟨d', ?_, h2⟩
    rw [deAt, de, refsAt]; exact h1

end Verif
