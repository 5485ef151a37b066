import Verif.Lemmas.Serde
/-! Lemmas about deserialization: what each visitor loop computes. -/
namespace Verif
open Spec

/-! ## Values that look the same -/

theorem same_array {xs ys : List Value} : Same (.array xs) (.array ys) ↔
    xs.length = ys.length ∧ ∀ (i : Nat) x y, xs[i]? = some x → ys[i]? = some y → Same x y := by
  rw [same_iff_agree, agree_array]
  simp only [same_iff_agree]

theorem same_map {m n : Entries} : Same (.map m) (.map n) ↔
    ∀ k, (hmGet m k = none ↔ hmGet n k = none) ∧ ∀ x y, hmGet m k = some x → hmGet n k = some y → Same x y := by
  rw [same_iff_agree, agree_map]
  simp only [same_iff_agree]

theorem same_array_left {xs : List Value} {v : Value} (h : Same (.array xs) v) : ∃ ys, v = .array ys := by
  have := h []
  cases v <;> simp [view, head] at this
  exact ⟨_, rfl⟩

theorem same_map_left {m : Entries} {v : Value} (h : Same (.map m) v) : ∃ n, v = .map n := by
  have := h []
  cases v <;> simp [view, head] at this
  exact ⟨_, rfl⟩

/-- Neither array nor map. -/
def isScalar : Value → Bool
  | .array _ => false
  | .map _ => false
  | _ => true

theorem same_scalar {v w : Value} (hs : isScalar v = true) (h : Same v w) : w = v := by
  have := h []
  cases v <;> first | (cases hs; done) | (cases w <;> simp [view, head] at this <;> first | rfl | rw [this])

theorem forall2_of_index {α β : Type} {R : α → β → Prop} : ∀ {l : List α} {l' : List β}, l.length = l'.length →
    (∀ (i : Nat) a b, l[i]? = some a → l'[i]? = some b → R a b) → List.Forall₂ R l l' := by
  intro l
  induction l with
  | nil => intro l' hl _; cases l' with | nil => exact .nil | cons => cases hl
  | cons a r ih =>
    intro l' hl h
    cases l' with
    | nil => cases hl
    | cons b r' =>
      refine .cons (h 0 a b rfl rfl) (ih (by simpa using hl) ?_)
      intro i x y hx hy
      exact h (i + 1) x y (by simpa using hx) (by simpa using hy)

theorem forall2_index {α β : Type} {R : α → β → Prop} {l : List α} {l' : List β} (h : List.Forall₂ R l l') :
    l.length = l'.length ∧ ∀ (i : Nat) a b, l[i]? = some a → l'[i]? = some b → R a b := by
  induction h with
  | nil => simp
  | cons h1 _ ih =>
    refine ⟨by simp [ih.1], ?_⟩
    intro i a b ha hb
    cases i with
    | zero => simp at ha hb; subst ha; subst hb; exact h1
    | succ i => exact ih.2 i a b (by simpa using ha) (by simpa using hb)

/-! ## The identity visitors -/

theorem deIgnored_ok (v : Value) : deIgnored v = .ok () := by
  induction v using Value.ind with
  | array xs ih =>
    rw [deIgnored]
    induction xs with
    | nil => rw [deIgnoredSeq]
    | cons x r ih2 =>
      rw [deIgnoredSeq, ih x List.mem_cons_self]
      exact ih2 (fun y hy => ih y (List.mem_cons_of_mem _ hy))
  | map m ih =>
    rw [deIgnored]
    induction m with
    | nil => rw [deIgnoredMap]
    | cons e r ih2 =>
      obtain ⟨k, x⟩ := e
      rw [deIgnoredMap, deIgnoredEntry, ih (k, x) List.mem_cons_self]
      exact ih2 (fun y hy => ih y (List.mem_cons_of_mem _ hy))
  | _ => rw [deIgnored] <;> simp

theorem deValueSeq_ok (xs : List Value) (h : ∀ x ∈ xs, deValue x = .ok x) : ∀ acc,
    deValueSeq acc xs = .ok (.array (acc ++ xs)) := by
  induction xs with
  | nil => intro acc; rw [deValueSeq]; simp
  | cons x r ih =>
    intro acc
    rw [deValueSeq, h x List.mem_cons_self, Outcome.bind_ok, ih (fun y hy => h y (List.mem_cons_of_mem _ hy))]
    simp

theorem deValueMap_ok (m : Entries) (h : ∀ e ∈ m, deValue e.2 = .ok e.2) : ∀ acc,
    deValueMap acc m = .ok (.map (insAll acc m)) := by
  induction m with
  | nil => intro acc; rw [deValueMap]; rfl
  | cons e r ih =>
    intro acc
    obtain ⟨k, x⟩ := e
    have : (Value.string k).tryInto .string = .ok k := rfl
    rw [deValueMap, deValueEntry, this, h (k, x) List.mem_cons_self]
    exact ih (fun y hy => h y (List.mem_cons_of_mem _ hy)) _

theorem deValue_ok (v : Value) (hu : UniqueKeys v) : deValue v = .ok v := by
  induction v using Value.ind with
  | array xs ih =>
    rw [uniqueKeys_array] at hu
    rw [deValue, deValueSeq_ok xs (fun x hx => ih x hx (hu x hx))]
    simp
  | map m ih =>
    rw [uniqueKeys_map] at hu
    rw [deValue, deValueMap_ok m (fun x hx => ih x hx (hu.2 x hx)), insAll_fresh]
    · simp
    · simpa using hu.1
  | _ => rw [deValue]

/-- Whatever the value, deserializing it as a `Value` succeeds. -/
theorem deValue_noPanic (v : Value) : ∃ w, deValue v = .ok w := by
  induction v using Value.ind with
  | array xs ih =>
    rw [deValue]
    have : ∀ acc, ∃ w, deValueSeq acc xs = .ok w := by
      induction xs with
      | nil => intro acc; exact ⟨_, by rw [deValueSeq]⟩
      | cons x r ih2 =>
        intro acc
        obtain ⟨w, hw⟩ := ih x List.mem_cons_self
        rw [deValueSeq, hw]
        exact ih2 (fun y hy => ih y (List.mem_cons_of_mem _ hy)) _
    exact this []
  | map m ih =>
    rw [deValue]
    have : ∀ acc, ∃ w, deValueMap acc m = .ok w := by
      induction m with
      | nil => intro acc; exact ⟨_, by rw [deValueMap]⟩
      | cons e r ih2 =>
        intro acc
        obtain ⟨k, x⟩ := e
        obtain ⟨w, hw⟩ := ih (k, x) List.mem_cons_self
        have : (Value.string k).tryInto .string = .ok k := rfl
        rw [deValueMap, deValueEntry, this, hw]
        exact ih2 (fun y hy => ih y (List.mem_cons_of_mem _ hy)) _
    exact this []
  | _ => exact ⟨_, by rw [deValue]⟩

/-! ## Sequences -/

theorem deVecLoop_ok (dec : Decoder) (xs : List Value) : ∀ (acc ds : List Data), deVecLoop dec acc xs = .ok ds ↔
    ∃ ys, List.Forall₂ (fun x y => dec x = .ok y) xs ys ∧ ds = acc ++ ys := by
  induction xs with
  | nil => intro acc ds; simp [deVecLoop, eq_comm]
  | cons x r ih =>
    intro acc ds
    rw [deVecLoop, bind_eq_ok]
    simp only [ih, List.forall₂_cons_left_iff]
    constructor
    · rintro ⟨y, hy, ys, h, rfl⟩; exact ⟨y :: ys, ⟨y, ys, hy, h, rfl⟩, by simp⟩
    · rintro ⟨_, ⟨y, ys, hy, h, rfl⟩, rfl⟩; exact ⟨y, hy, ys, h, by simp⟩

theorem deVecLoop_noPanic (dec : Decoder) (xs : List Value) (h : ∀ x ∈ xs, dec x ≠ .panic) : ∀ (acc : List Data),
    deVecLoop dec acc xs ≠ .panic := by
  induction xs with
  | nil => intro acc; simp [deVecLoop]
  | cons x r ih =>
    intro acc
    rw [deVecLoop, ne_eq, bind_eq_panic]
    rintro (h1 | ⟨a, _, h1⟩)
    · exact h x List.mem_cons_self h1
    · exact ih (fun y hy => h y (List.mem_cons_of_mem _ hy)) _ h1

theorem deTupleLoop_ok : ∀ (decs : List Decoder) (xs : List Value) (i : Nat) (acc ds : List Data),
    deTupleLoop i acc decs xs = .ok ds ↔
    ∃ ys, ds = acc ++ ys ∧ ys.length = decs.length ∧ decs.length ≤ xs.length ∧
      ∀ (j : Nat) dec x y, decs[j]? = some dec → xs[j]? = some x → ys[j]? = some y → dec x = .ok y := by
  intro decs
  induction decs with
  | nil =>
    intro xs i acc ds
    simp only [deTupleLoop]
    constructor
    · intro h; cases h; exact ⟨[], by simp⟩
    · rintro ⟨ys, rfl, h, -, -⟩
      rw [List.length_nil, List.length_eq_zero_iff] at h; subst h; simp
  | cons dec r ih =>
    intro xs i acc ds
    cases xs with
    | nil =>
      simp only [deTupleLoop]
      constructor
      · intro h; cases h
      · rintro ⟨ys, -, -, h, -⟩; simp at h
    | cons x xr =>
      rw [deTupleLoop, bind_eq_ok]
      simp only [ih]
      constructor
      · rintro ⟨y, hy, ys, rfl, h1, h2, h3⟩
        refine ⟨y :: ys, by simp, by simp [h1], by simpa using h2, ?_⟩
        intro j dec' x' y' hd hx hy'
        cases j with
        | zero => simp at hd hx hy'; subst hd; subst hx; subst hy'; exact hy
        | succ j => exact h3 j dec' x' y' (by simpa using hd) (by simpa using hx) (by simpa using hy')
      · rintro ⟨ys, rfl, h1, h2, h3⟩
        cases ys with
        | nil => simp at h1
        | cons y ys =>
          refine ⟨y, h3 0 dec x y rfl rfl rfl, ys, by simp, by simpa using h1, by simpa using h2, ?_⟩
          intro j dec' x' y' hd hx hy'
          exact h3 (j + 1) dec' x' y' (by simpa using hd) (by simpa using hx) (by simpa using hy')

theorem deTupleLoop_noPanic : ∀ (decs : List Decoder) (xs : List Value) (i : Nat) (acc : List Data),
    (∀ dec ∈ decs, ∀ x ∈ xs, dec x ≠ .panic) → deTupleLoop i acc decs xs ≠ .panic := by
  intro decs
  induction decs with
  | nil => intro xs i acc _; simp [deTupleLoop]
  | cons dec r ih =>
    intro xs i acc h
    cases xs with
    | nil => simp [deTupleLoop]
    | cons x xr =>
      rw [deTupleLoop, ne_eq, bind_eq_panic]
      rintro (h1 | ⟨a, _, h1⟩)
      · exact h dec List.mem_cons_self x List.mem_cons_self h1
      · exact ih _ _ _ (fun d hd y hy => h d (List.mem_cons_of_mem _ hd) y (List.mem_cons_of_mem _ hy)) h1

theorem decoders_get (refs : Nat → Decoder) : ∀ (ts : List Ty) (j : Nat),
    (decoders refs ts)[j]? = (ts[j]?).map (fun t => de refs t) := by
  intro ts
  induction ts with
  | nil => intro j; simp [decoders]
  | cons t r ih =>
    intro j
    rw [decoders]
    cases j with
    | zero => rfl
    | succ j => simpa using ih j

theorem decoders_length (refs : Nat → Decoder) (ts : List Ty) : (decoders refs ts).length = ts.length := by
  induction ts with
  | nil => simp [decoders]
  | cons t r ih => simp [decoders, ih]

theorem decoders_mem (refs : Nat → Decoder) {ts : List Ty} {dec : Decoder} (h : dec ∈ decoders refs ts) :
    ∃ t ∈ ts, dec = de refs t := by
  induction ts with
  | nil => simp [decoders] at h
  | cons t r ih =>
    rw [decoders] at h
    rcases List.mem_cons.1 h with rfl | h
    · exact ⟨t, List.mem_cons_self, rfl⟩
    · obtain ⟨t', h1, h2⟩ := ih h; exact ⟨t', List.mem_cons_of_mem _ h1, h2⟩

/-! ## Maps -/

/-- Insert the entries one after the other. -/
def keyInsAll (es : List (Key × Data)) (kds : List (Key × Data)) : List (Key × Data) :=
  kds.foldl (fun m e => keyInsert m e.1 e.2) es

/-- Lookup by key. -/
def keyGet (es : List (Key × Data)) (k : Key) : Option Data := (es.find? (fun e => e.1 == k)).map Prod.snd

theorem keyGet_insert (es : List (Key × Data)) (k : Key) (d : Data) (j : Key) :
    keyGet (keyInsert es k d) j = if k = j then some d else keyGet es j := by
  induction es with
  | nil =>
    by_cases h : k = j <;> simp [keyInsert, keyGet, h]
  | cons e r ih =>
    obtain ⟨k', d'⟩ := e
    simp only [keyInsert]
    by_cases h : k' = k
    · subst h
      by_cases hj : k' = j <;> simp [keyGet, hj]
    · rw [if_neg h]
      unfold keyGet at ih ⊢
      by_cases hj : k' = j
      · subst hj; simp [Ne.symm h]
      · simp only [List.find?_cons]
        have : (k' == j) = false := by simpa using hj
        simp only [this]
        exact ih

theorem keyGet_insAll_absent (kds : List (Key × Data)) : ∀ (es : List (Key × Data)) (k : Key),
    k ∉ kds.map Prod.fst → keyGet (keyInsAll es kds) k = keyGet es k := by
  induction kds with
  | nil => intro es k _; rfl
  | cons e r ih =>
    intro es k h
    simp only [List.map_cons, List.mem_cons, not_or] at h
    show keyGet (keyInsAll (keyInsert es e.1 e.2) r) k = _
    rw [ih _ _ h.2, keyGet_insert, if_neg (fun h' => h.1 h'.symm)]

/-- If no two different entries share a key, each entry is found. -/
theorem keyGet_insAll_mem (kds : List (Key × Data)) : ∀ (es : List (Key × Data)) (k : Key) (d : Data),
    (kds.map Prod.fst).Nodup → (k, d) ∈ kds → keyGet (keyInsAll es kds) k = some d := by
  induction kds with
  | nil => intro es k d _ h; simp at h
  | cons e r ih =>
    intro es k d hn h
    simp only [List.map_cons, List.nodup_cons] at hn
    show keyGet (keyInsAll (keyInsert es e.1 e.2) r) k = _
    rcases List.mem_cons.1 h with rfl | h
    · rw [keyGet_insAll_absent _ _ _ hn.1, keyGet_insert, if_pos rfl]
    · exact ih _ _ _ hn.2 h

theorem deMapLoop_ok (kt : KeyTy) (dec : Decoder) (m : Entries) : ∀ (acc es : List (Key × Data)),
    deMapLoop kt dec acc m = .ok es ↔
    ∃ kds : List (Key × Data), List.Forall₂ (fun e kd => deKey kt e.1 = .ok kd.1 ∧ dec e.2 = .ok kd.2) m kds ∧
      es = keyInsAll acc kds := by
  induction m with
  | nil => intro acc es; simp [deMapLoop, eq_comm, keyInsAll]
  | cons e r ih =>
    intro acc es
    obtain ⟨k, v⟩ := e
    rw [deMapLoop]
    simp only [bind_eq_ok, ih, List.forall₂_cons_left_iff]
    constructor
    · rintro ⟨key, hk, d, hd, kds, h, rfl⟩
      exact ⟨(key, d) :: kds, ⟨(key, d), kds, ⟨hk, hd⟩, h, rfl⟩, rfl⟩
    · rintro ⟨_, ⟨⟨key, d⟩, kds, ⟨hk, hd⟩, h, rfl⟩, rfl⟩
      exact ⟨key, hk, d, hd, kds, h, rfl⟩

theorem deInt_noPanic (t : IntTy) (v : Value) : deInt t v ≠ .panic := by
  cases t <;> simp only [deInt] <;> first | exact ofExcept_panic | simp

theorem deKey_noPanic (kt : KeyTy) (k : String) : deKey kt k ≠ .panic := by
  cases kt <;> simp only [deKey, ne_eq, bind_eq_panic] <;>
    rintro (h | ⟨a, _, h⟩) <;> first | exact ofExcept_panic h | exact deInt_noPanic _ _ h | cases h

theorem deMapLoop_noPanic (kt : KeyTy) (dec : Decoder) (m : Entries) (h : ∀ e ∈ m, dec e.2 ≠ .panic) :
    ∀ (acc : List (Key × Data)), deMapLoop kt dec acc m ≠ .panic := by
  induction m with
  | nil => intro acc; simp [deMapLoop]
  | cons e r ih =>
    intro acc
    obtain ⟨k, v⟩ := e
    rw [deMapLoop, ne_eq]
    simp only [bind_eq_panic]
    rintro (h1 | ⟨a, _, h1 | ⟨d, _, h1⟩⟩)
    · exact deKey_noPanic _ _ h1
    · exact h _ List.mem_cons_self h1
    · exact ih (fun y hy => h y (List.mem_cons_of_mem _ hy)) _ h1

/-! ## Structs -/

theorem find_field {fds : List FieldDec} (hn : (fds.map FieldDec.name).Nodup) {fd : FieldDec} (h : fd ∈ fds) :
    fds.find? (fun f => f.name == fd.name) = some fd := by
  induction fds with
  | nil => simp at h
  | cons f r ih =>
    simp only [List.map_cons, List.nodup_cons] at hn
    rcases List.mem_cons.1 h with rfl | h
    · simp
    · have : f.name ≠ fd.name := by
        intro e; exact hn.1 (e ▸ List.mem_map.2 ⟨fd, h, rfl⟩)
      have e : (f.name == fd.name) = false := by simpa using this
      rw [List.find?_cons, e]
      exact ih hn.2 h

theorem string_self (k : String) : Outcome.ofExcept ((Value.string k).tryInto .string) = .ok k := rfl

/-- What the loop leaves for each key. -/
theorem deStructLoop_get (fds : List FieldDec) (m : Entries) : ∀ (acc acc' : List (String × Data)),
    (m.map Prod.fst).Nodup → deStructLoop fds acc m = .ok acc' → ∀ k,
    match hmGet m k, fds.find? (fun fd => fd.name == k) with
    | some v, some fd => ∃ d, fd.dec v = .ok d ∧ hmGet acc' k = some d
    | _, _ => hmGet acc' k = hmGet acc k := by
  induction m with
  | nil =>
    intro acc acc' _ h k
    simp only [deStructLoop, Outcome.ok.injEq] at h
    subst h; simp
  | cons e r ih =>
    intro acc acc' hn h k
    obtain ⟨k0, v0⟩ := e
    simp only [List.map_cons, List.nodup_cons] at hn
    rw [deStructLoop, string_self, Outcome.bind_ok] at h
    rw [hmGet_cons]
    split at h
    · rename_i fd hfd
      split at h
      · cases h
      · rw [bind_eq_ok] at h
        obtain ⟨d, hd, h⟩ := h
        have := ih _ _ hn.2 h k
        by_cases hk : k0 = k
        · subst hk
          rw [if_pos rfl, hfd]
          have h0 : hmGet r k0 = none := hmGet_eq_none.2 hn.1
          rw [h0] at this
          simp only at this
          exact ⟨d, hd, by rw [this, hmGet_insert, if_pos rfl]⟩
        · rw [if_neg hk]
          rw [hmGet_insert, if_neg hk] at this
          exact this
    · rename_i hfd
      rw [deIgnored_ok, Outcome.bind_ok] at h
      have := ih _ _ hn.2 h k
      by_cases hk : k0 = k
      · subst hk
        rw [if_pos rfl, hfd]
        rw [hfd] at this
        cases hr : hmGet r k0 <;> simpa [hr] using this
      · rw [if_neg hk]; exact this

/-- When the loop succeeds. -/
theorem deStructLoop_exists (fds : List FieldDec) (m : Entries) : ∀ (acc : List (String × Data)),
    (m.map Prod.fst).Nodup → (∀ k ∈ m.map Prod.fst, hmGet acc k = none) →
    (∀ e ∈ m, ∀ fd, fds.find? (fun fd => fd.name == e.1) = some fd → ∃ d, fd.dec e.2 = .ok d) →
    ∃ acc', deStructLoop fds acc m = .ok acc' := by
  induction m with
  | nil => intro acc _ _ _; exact ⟨acc, rfl⟩
  | cons e r ih =>
    intro acc hn ha h
    obtain ⟨k0, v0⟩ := e
    simp only [List.map_cons, List.nodup_cons] at hn
    rw [deStructLoop, string_self, Outcome.bind_ok]
    split
    · rename_i fd hfd
      have h0 : hmGet acc k0 = none := ha k0 (by simp)
      obtain ⟨d, hd⟩ := h (k0, v0) List.mem_cons_self fd hfd
      simp only [h0, Option.isSome_none, Bool.false_eq_true, if_false, hd, Outcome.bind_ok]
      refine ih _ hn.2 ?_ (fun e he => h e (List.mem_cons_of_mem _ he))
      intro k hk
      rw [hmGet_insert, if_neg (by rintro rfl; exact hn.1 hk)]
      exact ha k (by simp [hk])
    · rw [deIgnored_ok, Outcome.bind_ok]
      exact ih _ hn.2 (fun k hk => ha k (by simp [hk])) (fun e he => h e (List.mem_cons_of_mem _ he))

theorem deStructFinish_ok (acc : List (String × Data)) (fds : List FieldDec) : ∀ ds,
    deStructFinish acc fds = .ok ds ↔
    List.Forall₂ (fun fd nd => nd.1 = fd.name ∧
      (match hmGet acc fd.name with | some d => Outcome.ok d | none => fd.missing) = .ok nd.2) fds ds := by
  induction fds with
  | nil => intro ds; simp [deStructFinish, eq_comm]
  | cons fd r ih =>
    intro ds
    rw [deStructFinish]
    simp only [bind_eq_ok, ih, List.forall₂_cons_left_iff]
    constructor
    · rintro ⟨d, hd, ds', h, h'⟩
      cases h'
      exact ⟨(fd.name, d), ds', ⟨rfl, hd⟩, h, rfl⟩
    · rintro ⟨⟨n, d⟩, ds', ⟨hn, hd⟩, h, rfl⟩
      cases hn
      exact ⟨d, hd, ds', h, rfl⟩

/-- A struct, field by field. -/
theorem deStruct_ok (fds : List FieldDec) (hf : (fds.map FieldDec.name).Nodup) (m : Entries)
    (hn : (m.map Prod.fst).Nodup) (d : Data) : deStruct fds (.map m) = .ok d ↔
    ∃ ds, d = .struct ds ∧ List.Forall₂ (fun fd nd => nd.1 = fd.name ∧
      (match hmGet m fd.name with | some v => fd.dec v | none => fd.missing) = .ok nd.2) fds ds := by
  simp only [deStruct, bind_eq_ok]
  constructor
  · rintro ⟨acc, h1, ds, h2, h3⟩
    cases h3
    refine ⟨ds, rfl, ?_⟩
    rw [deStructFinish_ok] at h2
    have hg := deStructLoop_get fds m [] acc hn h1
    have hmem : ∀ fd ∈ fds, fds.find? (fun f => f.name == fd.name) = some fd := fun fd h => find_field hf h
    refine forall2_of_index (forall2_index h2).1 ?_
    intro i fd nd hfd hnd
    obtain ⟨e1, e2⟩ := (forall2_index h2).2 i fd nd hfd hnd
    refine ⟨e1, ?_⟩
    have := hg fd.name
    rw [hmem fd (List.mem_of_getElem? hfd)] at this
    cases hm : hmGet m fd.name with
    | none =>
      simp only [hm] at this
      rw [this] at e2
      exact e2
    | some v =>
      simp only [hm] at this
      obtain ⟨x, hx, hx'⟩ := this
      rw [hx'] at e2
      rw [← e2]; exact hx
  · rintro ⟨ds, rfl, h⟩
    obtain ⟨acc, ha⟩ := deStructLoop_exists fds m [] hn (by simp) (by
      intro e he fd hfd
      have hfd' := List.mem_of_find?_eq_some hfd
      have hname : fd.name = e.1 := by
        have := List.find?_some hfd
        simpa using this
      obtain ⟨nd, _, _, hd⟩ := forall2_left h fd hfd'
      rw [hname, hmGet_of_mem hn (show (e.1, e.2) ∈ m from he)] at hd
      exact ⟨_, hd⟩)
    refine ⟨acc, ha, ds, ?_, rfl⟩
    rw [deStructFinish_ok]
    have hg := deStructLoop_get fds m [] acc hn ha
    have hmem : ∀ fd ∈ fds, fds.find? (fun f => f.name == fd.name) = some fd := fun fd h => find_field hf h
    refine forall2_of_index (forall2_index h).1 ?_
    intro i fd nd hfd hnd
    obtain ⟨e1, e2⟩ := (forall2_index h).2 i fd nd hfd hnd
    refine ⟨e1, ?_⟩
    have := hg fd.name
    rw [hmem fd (List.mem_of_getElem? hfd)] at this
    cases hm : hmGet m fd.name with
    | none =>
      simp only [hm] at this e2
      rw [this]; exact e2
    | some v =>
      simp only [hm] at this e2
      obtain ⟨x, hx, hx'⟩ := this
      rw [hx']; show Outcome.ok x = _; rw [← hx]; exact e2

theorem fieldDecoders_get (refs : Nat → Decoder) : ∀ (fs : List (String × Ty)) (j : Nat),
    (fieldDecoders refs fs)[j]? = (fs[j]?).map (fun f => ⟨f.1, de refs f.2, missingField f.1 f.2⟩) := by
  intro fs
  induction fs with
  | nil => intro j; simp [fieldDecoders]
  | cons f r ih =>
    intro j
    obtain ⟨n, t⟩ := f
    rw [fieldDecoders, fieldDecoder]
    cases j with
    | zero => rfl
    | succ j => simpa using ih j

theorem fieldDecoders_eq (refs : Nat → Decoder) (fs : List (String × Ty)) :
    fieldDecoders refs fs = fs.map (fun f => ⟨f.1, de refs f.2, missingField f.1 f.2⟩) := by
  apply List.ext_getElem?
  intro i
  rw [fieldDecoders_get, List.getElem?_map]

theorem de_struct_ok (refs : Nat → Decoder) (fs : List (String × Ty)) (hf : (fs.map Prod.fst).Nodup) (m : Entries)
    (hn : (m.map Prod.fst).Nodup) (d : Data) : de refs (.struct fs) (.map m) = .ok d ↔
    ∃ ds, d = .struct ds ∧ List.Forall₂ (fun f nd => nd.1 = f.1 ∧
      (match hmGet m f.1 with | some v => de refs f.2 v | none => missingField f.1 f.2) = .ok nd.2) fs ds := by
  rw [de, deStruct_ok _ _ _ hn]
  · simp only [fieldDecoders_eq, List.forall₂_map_left_iff]
  · rw [fieldDecoders_eq, List.map_map]; exact hf

theorem deStructLoop_noPanic (fds : List FieldDec) (m : Entries)
    (h : ∀ e ∈ m, ∀ fd ∈ fds, fd.dec e.2 ≠ .panic) : ∀ (acc : List (String × Data)),
    deStructLoop fds acc m ≠ .panic := by
  induction m with
  | nil => intro acc; simp [deStructLoop]
  | cons e r ih =>
    intro acc
    obtain ⟨k0, v0⟩ := e
    have ih := ih (fun e he => h e (List.mem_cons_of_mem _ he))
    rw [deStructLoop, string_self, Outcome.bind_ok]
    split
    · rename_i fd hfd
      split
      · simp
      · rw [ne_eq, bind_eq_panic]
        rintro (h1 | ⟨a, _, h1⟩)
        · exact h _ List.mem_cons_self fd (List.mem_of_find?_eq_some hfd) h1
        · exact ih _ h1
    · rw [deIgnored_ok, Outcome.bind_ok]; exact ih _

theorem deStructFinish_noPanic (acc : List (String × Data)) (fds : List FieldDec)
    (h : ∀ fd ∈ fds, fd.missing ≠ .panic) : deStructFinish acc fds ≠ .panic := by
  induction fds with
  | nil => simp [deStructFinish]
  | cons fd r ih =>
    rw [deStructFinish, ne_eq]
    simp only [bind_eq_panic]
    rintro (h1 | ⟨a, _, h1 | ⟨_, _, h1⟩⟩)
    · split at h1
      · cases h1
      · exact h _ List.mem_cons_self h1
    · exact ih (fun fd hfd => h fd (List.mem_cons_of_mem _ hfd)) h1
    · cases h1

theorem missingField_noPanic (n : String) (t : Ty) : missingField n t ≠ .panic := by
  cases t <;> simp [missingField]

theorem de_struct_noPanic (refs : Nat → Decoder) (fs : List (String × Ty)) (v : Value)
    (h : ∀ m, v = .map m → ∀ e ∈ m, ∀ f ∈ fs, de refs f.2 e.2 ≠ .panic) : de refs (.struct fs) v ≠ .panic := by
  rw [de, fieldDecoders_eq]
  cases v with
  | map m =>
    simp only [deStruct, ne_eq, bind_eq_panic]
    rintro (h1 | ⟨a, _, h1 | ⟨_, _, h1⟩⟩)
    · refine deStructLoop_noPanic _ _ ?_ _ h1
      intro e he fd hfd
      obtain ⟨f, hf, rfl⟩ := List.mem_map.1 hfd
      exact h m rfl e he f hf
    · refine deStructFinish_noPanic _ _ ?_ h1
      intro fd hfd
      obtain ⟨f, hf, rfl⟩ := List.mem_map.1 hfd
      exact missingField_noPanic _ _
    · cases h1
  | _ => simp [deStruct]

end Verif
