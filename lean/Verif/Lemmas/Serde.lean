import Verif.Spec.Serde
import Verif.Lemmas.Equality
import Verif.Lemmas.FloatText
import Mathlib.Data.List.Forall2
/-! Lemmas about serialization. -/
namespace Verif
open Spec

/-! ## Induction principles -/

theorem Data.ind {P : Data → Prop}
    (bool : ∀ b, P (.bool b)) (int : ∀ t n, P (.int t n)) (f32 : ∀ x, P (.f32 x)) (f64 : ∀ x, P (.f64 x))
    (char : ∀ c, P (.char c)) (str : ∀ s, P (.str s)) (bytes : ∀ bs, P (.bytes bs)) (none : P .none)
    (some : ∀ d, P d → P (.some d)) (unit : P .unit) (unitStruct : P .unitStruct)
    (unitVariant : ∀ v, P (.unitVariant v)) (newtypeStruct : ∀ d, P d → P (.newtypeStruct d))
    (newtypeVariant : ∀ v d, P d → P (.newtypeVariant v d))
    (seq : ∀ ds, (∀ d ∈ ds, P d) → P (.seq ds)) (tuple : ∀ ds, (∀ d ∈ ds, P d) → P (.tuple ds))
    (tupleStruct : ∀ ds, (∀ d ∈ ds, P d) → P (.tupleStruct ds))
    (tupleVariant : ∀ v ds, (∀ d ∈ ds, P d) → P (.tupleVariant v ds))
    (map : ∀ es, (∀ e ∈ es, P (Prod.fst e) ∧ P e.2) → P (.map es))
    (struct : ∀ fs, (∀ f ∈ fs, P (Prod.snd f)) → P (.struct fs))
    (structVariant : ∀ v fs, (∀ f ∈ fs, P (Prod.snd f)) → P (.structVariant v fs)) : ∀ d, P d :=
  Data.rec (motive_1 := P) (motive_2 := fun ds => ∀ d ∈ ds, P d) (motive_3 := fun es => ∀ e ∈ es, P (Prod.fst e) ∧ P e.2)
    (motive_4 := fun fs => ∀ f ∈ fs, P (Prod.snd f)) (motive_5 := fun e => P e.1 ∧ P e.2) (motive_6 := fun f => P f.2)
    bool int f32 f64 char str bytes none some unit unitStruct unitVariant newtypeStruct newtypeVariant seq tuple
    tupleStruct tupleVariant map struct structVariant
    (by simp) (by intro x xs hx hxs y hy; rcases List.mem_cons.1 hy with rfl | hy; exacts [hx, hxs y hy])
    (by simp) (by intro x xs hx hxs y hy; rcases List.mem_cons.1 hy with rfl | hy; exacts [hx, hxs y hy])
    (by simp) (by intro x xs hx hxs y hy; rcases List.mem_cons.1 hy with rfl | hy; exacts [hx, hxs y hy])
    (fun _ _ h1 h2 => ⟨h1, h2⟩) (fun _ _ h => h)

theorem Ty.ind {P : Ty → Prop}
    (bool : P .bool) (int : ∀ t, P (.int t)) (f32 : P .f32) (f64 : P .f64) (char : P .char) (string : P .string)
    (unit : P .unit) (unitStruct : P .unitStruct) (value : P .value) (bytes : P .bytes) (enum : P .enum)
    (option : ∀ t, P t → P (.option t)) (newtype : ∀ t, P t → P (.newtype t)) (seq : ∀ t, P t → P (.seq t))
    (tuple : ∀ ts, (∀ t ∈ ts, P t) → P (.tuple ts)) (tupleStruct : ∀ ts, (∀ t ∈ ts, P t) → P (.tupleStruct ts))
    (map : ∀ k t, P t → P (.map k t)) (struct : ∀ fs, (∀ f ∈ fs, P (Prod.snd f)) → P (.struct fs))
    (ref : ∀ n, P (.ref n)) : ∀ t, P t :=
  Ty.rec (motive_1 := P) (motive_2 := fun ts => ∀ t ∈ ts, P t) (motive_3 := fun fs => ∀ f ∈ fs, P (Prod.snd f))
    (motive_4 := fun f => P f.2)
    bool int f32 f64 char string unit unitStruct value bytes enum option newtype seq tuple tupleStruct map struct ref
    (by simp) (by intro x xs hx hxs y hy; rcases List.mem_cons.1 hy with rfl | hy; exacts [hx, hxs y hy])
    (by simp) (by intro x xs hx hxs y hy; rcases List.mem_cons.1 hy with rfl | hy; exacts [hx, hxs y hy])
    (fun _ _ h => h)

/-! ## Outcomes -/

theorem bind_eq_ok {ε α β : Type} {x : Outcome ε α} {f : α → Outcome ε β} {b : β} :
    (x >>= f) = .ok b ↔ ∃ a, x = .ok a ∧ f a = .ok b := by
  cases x <;> simp

theorem bind_eq_panic {ε α β : Type} {x : Outcome ε α} {f : α → Outcome ε β} :
    (x >>= f) = .panic ↔ x = .panic ∨ ∃ a, x = .ok a ∧ f a = .panic := by
  cases x <;> simp

theorem ofExcept_ok {ε α : Type} {x : Except ε α} {a : α} : Outcome.ofExcept x = .ok a ↔ x = .ok a := by
  cases x <;> simp [Outcome.ofExcept]

theorem ofExcept_panic {ε α : Type} {x : Except ε α} : Outcome.ofExcept x ≠ .panic := by
  cases x <;> simp [Outcome.ofExcept]

/-! ## Inserting lists of entries -/

/-- Insert the entries one after the other. -/
def insAll {α : Type} (m : List (String × α)) (kvs : List (String × α)) : List (String × α) :=
  kvs.foldl (fun m e => hmInsert m e.1 e.2) m

theorem insAll_cons {α : Type} (m : List (String × α)) (e : String × α) (r : List (String × α)) :
    insAll m (e :: r) = insAll (hmInsert m e.1 e.2) r := rfl

theorem hmInsert_fresh {α : Type} {m : List (String × α)} {k : String} (h : k ∉ m.map Prod.fst) (v : α) :
    hmInsert m k v = m ++ [(k, v)] := by
  induction m with
  | nil => rfl
  | cons e r ih =>
    obtain ⟨k', v'⟩ := e
    simp only [List.map_cons, List.mem_cons, not_or] at h
    simp only [hmInsert]
    rw [if_neg (fun h' => h.1 h'.symm), ih h.2]; rfl

theorem insAll_fresh {α : Type} (kvs : List (String × α)) : ∀ (m : List (String × α)),
    ((m ++ kvs).map Prod.fst).Nodup → insAll m kvs = m ++ kvs := by
  induction kvs with
  | nil => intro m _; simp [insAll]
  | cons e r ih =>
    intro m h
    have hf : e.1 ∉ m.map Prod.fst := by
      intro hm
      rw [List.map_append, List.nodup_append] at h
      exact h.2.2 _ hm _ List.mem_cons_self rfl
    rw [insAll_cons, hmInsert_fresh hf, ih]
    · simp
    · simpa using h

theorem hmGet_insAll {α : Type} (kvs : List (String × α)) : ∀ (m : List (String × α)) (k : String),
    hmGet (insAll m kvs) k = (match hmGet (insAll [] kvs) k with | some x => some x | none => hmGet m k) := by
  induction kvs using List.reverseRecOn with
  | nil => intro m k; simp [insAll, hmGet]
  | append_singleton r e ih =>
    intro m k
    have : ∀ m', insAll m' (r ++ [e]) = hmInsert (insAll m' r) e.1 e.2 := by
      intro m'; simp [insAll, List.foldl_append]
    rw [this, this, hmGet_insert, hmGet_insert]
    split
    · rfl
    · exact ih m k

theorem mem_keys_insAll {α : Type} (kvs : List (String × α)) : ∀ (m : List (String × α)) (k : String),
    k ∈ (insAll m kvs).map Prod.fst ↔ k ∈ m.map Prod.fst ∨ k ∈ kvs.map Prod.fst := by
  induction kvs with
  | nil => intro m k; simp [insAll]
  | cons e r ih =>
    intro m k
    rw [insAll_cons, ih, keys_insert]
    by_cases h : e.1 ∈ m.map Prod.fst
    · rw [if_pos h]
      simp only [List.map_cons, List.mem_cons]
      constructor
      · rintro (h1 | h1); exacts [Or.inl h1, Or.inr (Or.inr h1)]
      · rintro (h1 | rfl | h1); exacts [Or.inl h1, Or.inl h, Or.inr h1]
    · rw [if_neg h]
      simp only [List.mem_append, List.map_cons, List.mem_cons, List.mem_singleton, List.not_mem_nil, or_false]
      tauto

theorem nodup_insAll {α : Type} (kvs : List (String × α)) : ∀ (m : List (String × α)),
    (m.map Prod.fst).Nodup → ((insAll m kvs).map Prod.fst).Nodup := by
  induction kvs with
  | nil => intro m h; exact h
  | cons e r ih => intro m h; exact ih _ (nodup_insert h _ _)

theorem mem_insAll {α : Type} (kvs : List (String × α)) : ∀ (m : List (String × α)) (e : String × α),
    e ∈ insAll m kvs → e ∈ m ∨ e ∈ kvs := by
  induction kvs with
  | nil => intro m e h; exact Or.inl h
  | cons x r ih =>
    intro m e h
    rcases ih _ _ h with h | h
    · rcases mem_insert h with h | h
      · exact Or.inr (List.mem_cons.2 (Or.inl h))
      · exact Or.inl h
    · exact Or.inr (List.mem_cons_of_mem _ h)

/-! ## Serialization -/

theorem setQ_map (m : Entries) (k : String) (x : Value) : setQ (.map m) k x = .ok (.map (hmInsert m k x)) := rfl
theorem pushQ_array (xs : List Value) (x : Value) : pushQ (.array xs) x = .ok (.array (xs ++ [x])) := rfl

theorem serElems_ok (ds : List Data) : ∀ (acc : List Value) (v : Value), serElems (.array acc) ds = .ok v ↔
    ∃ vs, List.Forall₂ (fun d x => ser d = .ok x) ds vs ∧ v = .array (acc ++ vs) := by
  induction ds with
  | nil =>
    intro acc v
    rw [serElems]
    simp [eq_comm]
  | cons d r ih =>
    intro acc v
    rw [serElems, bind_eq_ok]
    simp only [pushQ_array, Outcome.bind_ok, ih, List.forall₂_cons_left_iff]
    constructor
    · rintro ⟨x, hx, vs, hvs, rfl⟩
      exact ⟨x :: vs, ⟨x, vs, hx, hvs, rfl⟩, by simp⟩
    · rintro ⟨_, ⟨x, vs, hx, hvs, rfl⟩, rfl⟩
      exact ⟨x, hx, vs, hvs, by simp⟩

theorem serEntries_ok (es : List (Data × Data)) : ∀ (m : Entries) (st : SerMap),
    serEntries ⟨.map m, none⟩ es = .ok st ↔
    ∃ kvs : Entries, List.Forall₂ (fun e kv => (∃ kx, ser e.1 = .ok kx ∧ kx.tryInto .string = .ok kv.1) ∧
      ser e.2 = .ok kv.2) es kvs ∧ st = ⟨.map (insAll m kvs), none⟩ := by
  induction es with
  | nil =>
    intro m st
    rw [serEntries]
    simp [eq_comm, insAll]
  | cons e r ih =>
    intro m st
    obtain ⟨k, v⟩ := e
    rw [serEntries, serEntry]
    simp only [bind_eq_ok, SerMap.putKey, ofExcept_ok, List.forall₂_cons_left_iff]
    constructor
    · rintro ⟨st', ⟨kx, hkx, st2, ⟨ks, hks, hst2⟩, ⟨k3, st3⟩, h3, x, hx, m', hm', h4⟩, h5⟩
      cases hst2
      cases h3
      cases hm'
      cases h4
      rw [ih] at h5
      obtain ⟨kvs, h6, rfl⟩ := h5
      exact ⟨(ks, x) :: kvs, ⟨(ks, x), kvs, ⟨⟨kx, hkx, hks⟩, hx⟩, h6, rfl⟩, rfl⟩
    · rintro ⟨_, ⟨⟨ks, x⟩, kvs, ⟨⟨kx, hkx, hks⟩, hx⟩, h6, rfl⟩, rfl⟩
      refine ⟨_, ⟨kx, hkx, _, ⟨ks, hks, rfl⟩, _, rfl, x, hx, _, rfl, rfl⟩, ?_⟩
      rw [ih]
      exact ⟨kvs, h6, rfl⟩

theorem serFields_ok (fs : List (String × Data)) : ∀ (m : Entries) (v : Value), serFields (.map m) fs = .ok v ↔
    ∃ kvs : Entries, List.Forall₂ (fun f kv => kv.1 = f.1 ∧ ser f.2 = .ok kv.2) fs kvs ∧ v = .map (insAll m kvs) := by
  induction fs with
  | nil =>
    intro m v
    rw [serFields]
    simp [eq_comm, insAll]
  | cons f r ih =>
    intro m v
    obtain ⟨k, d⟩ := f
    rw [serFields, serField]
    simp only [bind_eq_ok, List.forall₂_cons_left_iff]
    constructor
    · rintro ⟨v', ⟨x, hx, h1⟩, h2⟩
      cases h1
      rw [ih] at h2
      obtain ⟨kvs, h6, rfl⟩ := h2
      exact ⟨(k, x) :: kvs, ⟨(k, x), kvs, ⟨rfl, hx⟩, h6, rfl⟩, rfl⟩
    · rintro ⟨_, ⟨⟨ks, x⟩, kvs, ⟨h1, hx⟩, h6, rfl⟩, rfl⟩
      cases h1
      refine ⟨_, ⟨x, hx, rfl⟩, ?_⟩
      rw [ih]
      exact ⟨kvs, h6, rfl⟩

theorem serBytes_ok (bs : List (IntOf .u8)) : ∀ acc : List Value, serBytes (.array acc) bs =
    .ok (.array (acc ++ bs.map fun b => .uInteger (widen .u64 (by decide) b))) := by
  induction bs with
  | nil => intro acc; simp [serBytes]
  | cons b r ih =>
    intro acc
    have : pushUnwrap (.array acc) (.uInteger (widen .u64 (by decide) b)) =
      .ok (.array (acc ++ [.uInteger (widen .u64 (by decide) b)])) := rfl
    simp only [serBytes, this, Outcome.bind_ok, ih]
    simp

/-! ### No panics -/

theorem serElems_noPanic (ds : List Data) (h : ∀ d ∈ ds, ser d ≠ .panic) : ∀ acc : List Value,
    serElems (.array acc) ds ≠ .panic := by
  induction ds with
  | nil => intro acc; rw [serElems]; simp
  | cons d r ih =>
    intro acc
    rw [serElems, ne_eq, bind_eq_panic]
    rintro (h1 | ⟨x, hx, h1⟩)
    · exact h d List.mem_cons_self h1
    · rw [pushQ_array, Outcome.bind_ok] at h1
      exact ih (fun d hd => h d (List.mem_cons_of_mem _ hd)) _ h1

theorem serEntries_noPanic (es : List (Data × Data)) (h : ∀ e ∈ es, ser e.1 ≠ .panic ∧ ser e.2 ≠ .panic) :
    ∀ m : Entries, serEntries ⟨.map m, none⟩ es ≠ .panic := by
  induction es with
  | nil => intro m; rw [serEntries]; simp
  | cons e r ih =>
    intro m
    obtain ⟨k, v⟩ := e
    have hkv := h (k, v) List.mem_cons_self
    rw [serEntries, serEntry, ne_eq]
    simp only [bind_eq_panic, bind_eq_ok, SerMap.putKey]
    rintro ((h1 | ⟨kx, hkx, (h1 | ⟨ks, hks, h1⟩) | ⟨st, ⟨ks, hks, hst⟩, h1 | ⟨⟨k3, st3⟩, h3, h1 | ⟨x, hx, h1 | ⟨m', hm', h1⟩⟩⟩⟩⟩) |
      ⟨st', ⟨kx, hkx, st2, ⟨ks, hks, hst2⟩, ⟨k3, st3⟩, h3, x, hx, m', hm', h4⟩, h5⟩)
    · exact hkv.1 h1
    · exact ofExcept_panic h1
    · cases h1
    · cases hst; cases h1
    · exact hkv.2 h1
    · cases hst; cases h3; cases h1
    · cases h1
    · cases hst2; cases h3; cases hm'; cases h4
      exact ih (fun d hd => h d (List.mem_cons_of_mem _ hd)) _ h5

theorem serFields_noPanic (fs : List (String × Data)) (h : ∀ f ∈ fs, ser f.2 ≠ .panic) : ∀ m : Entries,
    serFields (.map m) fs ≠ .panic := by
  induction fs with
  | nil => intro m; rw [serFields]; simp
  | cons f r ih =>
    intro m
    obtain ⟨k, d⟩ := f
    rw [serFields, serField, ne_eq]
    simp only [bind_eq_panic, bind_eq_ok]
    rintro ((h1 | ⟨x, hx, h1⟩) | ⟨v', ⟨x, hx, h1⟩, h2⟩)
    · exact h _ List.mem_cons_self h1
    · cases h1
    · cases h1
      exact ih (fun d hd => h d (List.mem_cons_of_mem _ hd)) _ h2

theorem ser_noPanic (d : Data) : ser d ≠ .panic := by
  induction d using Data.ind with
  | int t n => cases t <;> simp [ser]
  | bytes bs => simp [ser, Value.newArray, serBytes_ok]
  | some d ih => rw [ser]; exact ih
  | newtypeStruct d ih => rw [ser]; exact ih
  | newtypeVariant v d ih =>
    rw [ser, ne_eq, bind_eq_panic]
    rintro (h | ⟨x, _, h⟩)
    · exact ih h
    · cases h
  | seq ds ih => rw [ser]; exact serElems_noPanic ds ih []
  | tuple ds ih => rw [ser]; exact serElems_noPanic ds ih []
  | tupleStruct ds ih => rw [ser]; exact serElems_noPanic ds ih []
  | tupleVariant v ds ih =>
    rw [ser, ne_eq, bind_eq_panic]
    rintro (h | ⟨x, _, h⟩)
    · exact serElems_noPanic ds ih [] h
    · cases h
  | map es ih =>
    rw [ser, ne_eq, bind_eq_panic]
    rintro (h | ⟨x, _, h⟩)
    · exact serEntries_noPanic es ih [] h
    · cases h
  | struct fs ih => rw [ser]; exact serFields_noPanic fs ih []
  | structVariant v fs ih =>
    rw [ser, ne_eq, bind_eq_panic]
    rintro (h | ⟨x, _, h⟩)
    · exact serFields_noPanic fs ih [] h
    · cases h
  | _ => simp [ser]

/-! ### Layout of each kind of data -/

theorem ser_seq {ds : List Data} {v : Value} : ser (.seq ds) = .ok v ↔
    ∃ vs, List.Forall₂ (fun d x => ser d = .ok x) ds vs ∧ v = .array vs := by
  rw [ser]; exact serElems_ok ds [] v
theorem ser_tuple {ds : List Data} {v : Value} : ser (.tuple ds) = .ok v ↔
    ∃ vs, List.Forall₂ (fun d x => ser d = .ok x) ds vs ∧ v = .array vs := by
  rw [ser]; exact serElems_ok ds [] v
theorem ser_tupleStruct {ds : List Data} {v : Value} : ser (.tupleStruct ds) = .ok v ↔
    ∃ vs, List.Forall₂ (fun d x => ser d = .ok x) ds vs ∧ v = .array vs := by
  rw [ser]; exact serElems_ok ds [] v
theorem ser_tupleVariant {w : String} {ds : List Data} {v : Value} : ser (.tupleVariant w ds) = .ok v ↔
    ∃ vs, List.Forall₂ (fun d x => ser d = .ok x) ds vs ∧ v = .map [(w, .array vs)] := by
  rw [ser, bind_eq_ok]
  constructor
  · rintro ⟨a, h1, h2⟩
    obtain ⟨vs, h3, rfl⟩ := (serElems_ok ds [] a).1 h1
    cases h2
    exact ⟨vs, h3, rfl⟩
  · rintro ⟨vs, h3, rfl⟩
    exact ⟨_, (serElems_ok ds [] _).2 ⟨vs, h3, rfl⟩, rfl⟩
theorem ser_newtypeVariant {w : String} {d : Data} {v : Value} : ser (.newtypeVariant w d) = .ok v ↔
    ∃ x, ser d = .ok x ∧ v = .map [(w, x)] := by
  rw [ser, bind_eq_ok]
  constructor
  · rintro ⟨a, h1, h2⟩; cases h2; exact ⟨a, h1, rfl⟩
  · rintro ⟨a, h1, rfl⟩; exact ⟨a, h1, rfl⟩
theorem ser_struct {fs : List (String × Data)} {v : Value} : ser (.struct fs) = .ok v ↔
    ∃ kvs : Entries, List.Forall₂ (fun f kv => kv.1 = f.1 ∧ ser f.2 = .ok kv.2) fs kvs ∧ v = .map (insAll [] kvs) := by
  rw [ser]; exact serFields_ok fs [] v
theorem ser_structVariant {w : String} {fs : List (String × Data)} {v : Value} : ser (.structVariant w fs) = .ok v ↔
    ∃ kvs : Entries, List.Forall₂ (fun f kv => kv.1 = f.1 ∧ ser f.2 = .ok kv.2) fs kvs ∧
      v = .map [(w, .map (insAll [] kvs))] := by
  rw [ser, bind_eq_ok]
  constructor
  · rintro ⟨a, h1, h2⟩
    obtain ⟨vs, h3, rfl⟩ := (serFields_ok fs [] a).1 h1
    cases h2
    exact ⟨vs, h3, rfl⟩
  · rintro ⟨vs, h3, rfl⟩
    exact ⟨_, (serFields_ok fs [] _).2 ⟨vs, h3, rfl⟩, rfl⟩
theorem ser_map {es : List (Data × Data)} {v : Value} : ser (.map es) = .ok v ↔
    ∃ kvs : Entries, List.Forall₂ (fun e kv => (∃ kx, ser e.1 = .ok kx ∧ kx.tryInto .string = .ok kv.1) ∧
      ser e.2 = .ok kv.2) es kvs ∧ v = .map (insAll [] kvs) := by
  rw [ser, bind_eq_ok]
  constructor
  · rintro ⟨a, h1, h2⟩
    obtain ⟨vs, h3, rfl⟩ := (serEntries_ok es [] a).1 h1
    cases h2
    exact ⟨vs, h3, rfl⟩
  · rintro ⟨vs, h3, rfl⟩
    exact ⟨_, (serEntries_ok es [] _).2 ⟨vs, h3, rfl⟩, rfl⟩

/-! ### Which data serialize -/

theorem forall2_exists {α β : Type} {R : α → β → Prop} {l : List α} (h : ∀ a ∈ l, ∃ b, R a b) :
    ∃ l', List.Forall₂ R l l' := by
  induction l with
  | nil => exact ⟨[], .nil⟩
  | cons a r ih =>
    obtain ⟨b, hb⟩ := h a List.mem_cons_self
    obtain ⟨l', hl⟩ := ih (fun x hx => h x (List.mem_cons_of_mem _ hx))
    exact ⟨b :: l', .cons hb hl⟩

theorem forall2_left {α β : Type} {R : α → β → Prop} {l : List α} {l' : List β} (h : List.Forall₂ R l l') :
    ∀ a ∈ l, ∃ b ∈ l', R a b := by
  induction h with
  | nil => simp
  | cons h1 _ ih =>
    intro a ha
    rcases List.mem_cons.1 ha with rfl | ha
    · exact ⟨_, List.mem_cons_self, h1⟩
    · obtain ⟨b, hb, hr⟩ := ih a ha
      exact ⟨b, List.mem_cons_of_mem _ hb, hr⟩

theorem forall2_right {α β : Type} {R : α → β → Prop} {l : List α} {l' : List β} (h : List.Forall₂ R l l') :
    ∀ b ∈ l', ∃ a ∈ l, R a b := by
  induction h with
  | nil => simp
  | cons h1 _ ih =>
    intro a ha
    rcases List.mem_cons.1 ha with rfl | ha
    · exact ⟨_, List.mem_cons_self, h1⟩
    · obtain ⟨b, hb, hr⟩ := ih a ha
      exact ⟨b, List.mem_cons_of_mem _ hb, hr⟩

theorem ofInt_toString (t : IntTy) (n : IntOf t) : ∃ s, (Value.ofInt t n).tryInto .string = .ok s := by
  cases t <;> exact ⟨_, rfl⟩

/-- The key text exists iff the serialized key is a scalar. -/
theorem ser_key (d : Data) : ∀ x, ser d = .ok x → ((∃ s, x.tryInto .string = .ok s) ↔ KeyLike d) := by
  have hm : ∀ m s, (Value.map m).tryInto .string ≠ .ok s := by intro m s h; cases h
  have ha : ∀ m s, (Value.array m).tryInto .string ≠ .ok s := by intro m s h; cases h
  have hn : ∀ s, (Value.none).tryInto .string ≠ .ok s := by intro s h; cases h
  induction d using Data.ind with
  | bool b => intro x h; rw [ser] at h; cases h; exact ⟨fun _ => .bool b, fun _ => ⟨_, rfl⟩⟩
  | int t n =>
    intro x h
    refine ⟨fun _ => .int t n, fun _ => ?_⟩
    cases t <;> simp only [ser] at h <;> cases h <;> exact ofInt_toString _ _
  | f32 y => intro x h; rw [ser] at h; cases h; exact ⟨fun _ => .f32 y, fun _ => ⟨_, rfl⟩⟩
  | f64 y => intro x h; rw [ser] at h; cases h; exact ⟨fun _ => .f64 y, fun _ => ⟨_, rfl⟩⟩
  | char c => intro x h; rw [ser] at h; cases h; exact ⟨fun _ => .char c, fun _ => ⟨_, rfl⟩⟩
  | str s => intro x h; rw [ser] at h; cases h; exact ⟨fun _ => .str s, fun _ => ⟨_, rfl⟩⟩
  | unitVariant v => intro x h; rw [ser] at h; cases h; exact ⟨fun _ => .unitVariant v, fun _ => ⟨_, rfl⟩⟩
  | some d ih =>
    intro x h; rw [ser] at h
    rw [ih x h]
    exact ⟨.some, fun h => by cases h; assumption⟩
  | newtypeStruct d ih =>
    intro x h; rw [ser] at h
    rw [ih x h]
    exact ⟨.newtypeStruct, fun h => by cases h; assumption⟩
  | none => intro x h; rw [ser] at h; cases h; exact ⟨fun ⟨s, h⟩ => absurd h (hn s), fun h => by cases h⟩
  | unit => intro x h; rw [ser] at h; cases h; exact ⟨fun ⟨s, h⟩ => absurd h (hn s), fun h => by cases h⟩
  | unitStruct => intro x h; rw [ser] at h; cases h; exact ⟨fun ⟨s, h⟩ => absurd h (hn s), fun h => by cases h⟩
  | bytes bs =>
    intro x h
    rw [ser, show Value.newArray = .array [] from rfl, serBytes_ok] at h
    cases h; exact ⟨fun ⟨s, h⟩ => absurd h (ha _ s), fun h => by cases h⟩
  | seq ds =>
    intro x h; obtain ⟨_, _, rfl⟩ := ser_seq.1 h
    exact ⟨fun ⟨s, h⟩ => absurd h (ha _ s), fun h => by cases h⟩
  | tuple ds =>
    intro x h; obtain ⟨_, _, rfl⟩ := ser_tuple.1 h
    exact ⟨fun ⟨s, h⟩ => absurd h (ha _ s), fun h => by cases h⟩
  | tupleStruct ds =>
    intro x h; obtain ⟨_, _, rfl⟩ := ser_tupleStruct.1 h
    exact ⟨fun ⟨s, h⟩ => absurd h (ha _ s), fun h => by cases h⟩
  | tupleVariant v ds =>
    intro x h; obtain ⟨_, _, rfl⟩ := ser_tupleVariant.1 h
    exact ⟨fun ⟨s, h⟩ => absurd h (hm _ s), fun h => by cases h⟩
  | newtypeVariant v ds =>
    intro x h; obtain ⟨_, _, rfl⟩ := ser_newtypeVariant.1 h
    exact ⟨fun ⟨s, h⟩ => absurd h (hm _ s), fun h => by cases h⟩
  | map ds =>
    intro x h; obtain ⟨_, _, rfl⟩ := ser_map.1 h
    exact ⟨fun ⟨s, h⟩ => absurd h (hm _ s), fun h => by cases h⟩
  | struct ds =>
    intro x h; obtain ⟨_, _, rfl⟩ := ser_struct.1 h
    exact ⟨fun ⟨s, h⟩ => absurd h (hm _ s), fun h => by cases h⟩
  | structVariant v ds =>
    intro x h; obtain ⟨_, _, rfl⟩ := ser_structVariant.1 h
    exact ⟨fun ⟨s, h⟩ => absurd h (hm _ s), fun h => by cases h⟩

theorem ser_int {t : IntTy} (h : Upto64 t) (n : IntOf t) : ser (.int t n) = .ok (Value.ofInt t n) := by
  cases t <;> first | exact absurd rfl h.1 | exact absurd rfl h.2 | simp [ser]

theorem ser_ok_iff (d : Data) : (∃ v, ser d = .ok v) ↔ Serializable d := by
  have fwd : ∀ {ds : List Data}, (∀ d ∈ ds, (∃ v, ser d = .ok v) ↔ Serializable d) →
      ((∃ vs, List.Forall₂ (fun d x => ser d = .ok x) ds vs) ↔ ∀ d ∈ ds, Serializable d) := by
    intro ds ih
    constructor
    · rintro ⟨vs, h⟩ d hd
      obtain ⟨b, _, hb⟩ := forall2_left h d hd
      exact (ih d hd).1 ⟨b, hb⟩
    · intro h
      exact forall2_exists (fun d hd => (ih d hd).2 (h d hd))
  have fwdF : ∀ {fs : List (String × Data)}, (∀ f ∈ fs, (∃ v, ser f.2 = .ok v) ↔ Serializable f.2) →
      ((∃ kvs : Entries, List.Forall₂ (fun f kv => kv.1 = f.1 ∧ ser f.2 = .ok kv.2) fs kvs) ↔
        ∀ f ∈ fs, Serializable f.2) := by
    intro fs ih
    constructor
    · rintro ⟨vs, h⟩ d hd
      obtain ⟨b, _, hb⟩ := forall2_left h d hd
      exact (ih d hd).1 ⟨_, hb.2⟩
    · intro h
      refine forall2_exists (fun d hd => ?_)
      obtain ⟨v, hv⟩ := (ih d hd).2 (h d hd)
      exact ⟨(d.1, v), rfl, hv⟩
  induction d using Data.ind with
  | bool b => exact ⟨fun _ => .bool b, fun _ => ⟨_, by rw [ser]⟩⟩
  | int t n =>
    constructor
    · rintro ⟨v, h⟩
      refine .int n ⟨?_, ?_⟩ <;> rintro rfl <;> rw [ser] at h <;> cases h
    · intro h
      cases h with
      | int n h => exact ⟨_, ser_int h n⟩
  | f32 b => exact ⟨fun _ => .f32 b, fun _ => ⟨_, by rw [ser]⟩⟩
  | f64 b => exact ⟨fun _ => .f64 b, fun _ => ⟨_, by rw [ser]⟩⟩
  | char b => exact ⟨fun _ => .char b, fun _ => ⟨_, by rw [ser]⟩⟩
  | str b => exact ⟨fun _ => .str b, fun _ => ⟨_, by rw [ser]⟩⟩
  | bytes bs => exact ⟨fun _ => .bytes bs, fun _ => ⟨_, by rw [ser]; exact serBytes_ok bs []⟩⟩
  | none => exact ⟨fun _ => .none, fun _ => ⟨_, by rw [ser]⟩⟩
  | unit => exact ⟨fun _ => .unit, fun _ => ⟨_, by rw [ser]⟩⟩
  | unitStruct => exact ⟨fun _ => .unitStruct, fun _ => ⟨_, by rw [ser]⟩⟩
  | unitVariant v => exact ⟨fun _ => .unitVariant v, fun _ => ⟨_, by rw [ser]⟩⟩
  | some d ih => simp only [ser]; exact Iff.trans ih ⟨.some, fun h => by cases h; assumption⟩
  | newtypeStruct d ih => simp only [ser]; exact Iff.trans ih ⟨.newtypeStruct, fun h => by cases h; assumption⟩
  | newtypeVariant v d ih =>
    constructor
    · rintro ⟨x, h⟩
      obtain ⟨y, hy, _⟩ := ser_newtypeVariant.1 h
      exact .newtypeVariant v (ih.1 ⟨y, hy⟩)
    · intro h
      cases h with
      | newtypeVariant _ h =>
        obtain ⟨y, hy⟩ := ih.2 h
        exact ⟨_, ser_newtypeVariant.2 ⟨y, hy, rfl⟩⟩
  | seq ds ih =>
    simp only [ser_seq]
    constructor
    · rintro ⟨_, vs, h, _⟩; exact .seq ((fwd ih).1 ⟨vs, h⟩)
    · intro h; cases h with | seq h => obtain ⟨vs, h⟩ := (fwd ih).2 h; exact ⟨_, vs, h, rfl⟩
  | tuple ds ih =>
    simp only [ser_tuple]
    constructor
    · rintro ⟨_, vs, h, _⟩; exact .tuple ((fwd ih).1 ⟨vs, h⟩)
    · intro h; cases h with | tuple h => obtain ⟨vs, h⟩ := (fwd ih).2 h; exact ⟨_, vs, h, rfl⟩
  | tupleStruct ds ih =>
    simp only [ser_tupleStruct]
    constructor
    · rintro ⟨_, vs, h, _⟩; exact .tupleStruct ((fwd ih).1 ⟨vs, h⟩)
    · intro h; cases h with | tupleStruct h => obtain ⟨vs, h⟩ := (fwd ih).2 h; exact ⟨_, vs, h, rfl⟩
  | tupleVariant w ds ih =>
    simp only [ser_tupleVariant]
    constructor
    · rintro ⟨_, vs, h, _⟩; exact .tupleVariant w ((fwd ih).1 ⟨vs, h⟩)
    · intro h; cases h with | tupleVariant _ h => obtain ⟨vs, h⟩ := (fwd ih).2 h; exact ⟨_, vs, h, rfl⟩
  | map es ih =>
    simp only [ser_map]
    constructor
    · rintro ⟨_, vs, h, _⟩
      have := forall2_left h
      refine .map ?_ ?_ ?_
      · intro e he; obtain ⟨b, _, ⟨kx, h1, h2⟩, h3⟩ := this e he; exact (ser_key _ kx h1).1 ⟨_, h2⟩
      · intro e he; obtain ⟨b, _, ⟨kx, h1, h2⟩, h3⟩ := this e he; exact (ih e he).1.1 ⟨_, h1⟩
      · intro e he; obtain ⟨b, _, ⟨kx, h1, h2⟩, h3⟩ := this e he; exact (ih e he).2.1 ⟨_, h3⟩
    · intro h
      cases h with
      | map h1 h2 h3 =>
        obtain ⟨kvs, hk⟩ := forall2_exists (R := fun (e : Data × Data) (kv : String × Value) =>
          (∃ kx, ser e.1 = .ok kx ∧ kx.tryInto .string = .ok kv.1) ∧ ser e.2 = .ok kv.2) (l := es) (by
            intro e he
            obtain ⟨kx, hkx⟩ := (ih e he).1.2 (h2 e he)
            obtain ⟨s, hs⟩ := (ser_key _ kx hkx).2 (h1 e he)
            obtain ⟨x, hx⟩ := (ih e he).2.2 (h3 e he)
            exact ⟨(s, x), ⟨kx, hkx, hs⟩, hx⟩)
        exact ⟨_, kvs, hk, rfl⟩
  | struct fs ih =>
    simp only [ser_struct]
    constructor
    · rintro ⟨_, vs, h, _⟩; exact .struct ((fwdF ih).1 ⟨vs, h⟩)
    · intro h; cases h with | struct h => obtain ⟨vs, h⟩ := (fwdF ih).2 h; exact ⟨_, vs, h, rfl⟩
  | structVariant w fs ih =>
    simp only [ser_structVariant]
    constructor
    · rintro ⟨_, vs, h, _⟩; exact .structVariant w ((fwdF ih).1 ⟨vs, h⟩)
    · intro h; cases h with | structVariant _ h => obtain ⟨vs, h⟩ := (fwdF ih).2 h; exact ⟨_, vs, h, rfl⟩

end Verif
