import Verif.Spec.Buffer
import Verif.Props.Attrs
/-!
# Types that buffer (C91)
-/
namespace Verif.Props
open Spec

/-! ## The buffer -/

theorem buffer_cases (v : Value) (hu : UniqueKeys v) :
    (No128 v → buffer v = .ok v) ∧ (¬ No128 v → ∃ e, buffer v = .err e) := by
  induction v using Value.ind with
  | array xs ih =>
    rw [no128_array, buffer]
    replace hu := uniqueKeys_array.1 hu
    have key : ((∀ x ∈ xs, No128 x) → bufferSeq xs = .ok xs) ∧ ((¬ ∀ x ∈ xs, No128 x) → ∃ e, bufferSeq xs = .err e) := by
      induction xs with
      | nil => exact ⟨fun _ => by rw [bufferSeq], fun h => absurd (by simp) h⟩
      | cons x r ih2 =>
        obtain ⟨a1, a2⟩ := ih x (by simp) (hu x (by simp))
        obtain ⟨b1, b2⟩ := ih2 (fun y hy => ih y (by simp [hy])) (fun y hy => hu y (by simp [hy]))
        rw [bufferSeq]
        constructor
        · intro h
          rw [a1 (h x (by simp)), Outcome.bind_ok, b1 (fun y hy => h y (by simp [hy]))]; rfl
        · intro h
          by_cases hx : No128 x
          · rw [a1 hx, Outcome.bind_ok]
            obtain ⟨e, he⟩ := b2 (fun hr => h (by
              intro y hy
              rcases List.mem_cons.1 hy with rfl | hy
              · exact hx
              · exact hr y hy))
            exact ⟨e, by rw [he]; rfl⟩
          · obtain ⟨e, he⟩ := a2 hx
            exact ⟨e, by rw [he]; rfl⟩
    constructor
    · intro h; rw [key.1 h]; rfl
    · intro h
      obtain ⟨e, he⟩ := key.2 h
      exact ⟨e, by rw [he]; rfl⟩
  | map m ih =>
    have hn := (uniqueKeys_map.1 hu).1
    replace hu := (uniqueKeys_map.1 hu).2
    rw [no128_map hn, buffer]
    have key : ((∀ e ∈ m, No128 e.2) → bufferMap m = .ok m) ∧ ((¬ ∀ e ∈ m, No128 e.2) → ∃ e, bufferMap m = .err e) := by
      clear hn
      induction m with
      | nil => exact ⟨fun _ => by rw [bufferMap], fun h => absurd (by simp) h⟩
      | cons x r ih2 =>
        obtain ⟨k, x⟩ := x
        obtain ⟨a1, a2⟩ := ih (k, x) (by simp) (hu (k, x) (by simp))
        obtain ⟨b1, b2⟩ := ih2 (fun y hy => ih y (by simp [hy])) (fun y hy => hu y (by simp [hy]))
        rw [bufferMap, bufferEntry]
        constructor
        · intro h
          rw [a1 (h (k, x) (by simp)), Outcome.bind_ok, Outcome.bind_ok, b1 (fun y hy => h y (by simp [hy]))]; rfl
        · intro h
          by_cases hx : No128 x
          · rw [a1 hx, Outcome.bind_ok, Outcome.bind_ok]
            obtain ⟨e, he⟩ := b2 (fun hr => h (by
              intro y hy
              rcases List.mem_cons.1 hy with rfl | hy
              · exact hx
              · exact hr y hy))
            exact ⟨e, by rw [he]; rfl⟩
          · obtain ⟨e, he⟩ := a2 hx
            exact ⟨e, by rw [he]; rfl⟩
    constructor
    · intro h; rw [key.1 h]; rfl
    · intro h
      obtain ⟨e, he⟩ := key.2 h
      exact ⟨e, by rw [he]; rfl⟩
  | longInteger n =>
    refine ⟨fun h => ?_, fun _ => ⟨_, by rw [buffer]⟩⟩
    exact absurd rfl ((h []).1 n)
  | uLongInteger n =>
    refine ⟨fun h => ?_, fun _ => ⟨_, by rw [buffer]⟩⟩
    exact absurd rfl ((h []).2 n)
  | _ =>
    refine ⟨fun _ => by rw [buffer], fun h => ?_⟩
    refine absurd ?_ h
    intro p
    cases p with
    | nil => simp [view, head]
    | cons s p => cases s <;> simp [view, child]

/-- **C91**, the buffer holds exactly the value, whatever is in it, except that a 128-bit integer anywhere makes reading fail (without a panic). -/
theorem C91_buffer (v : Value) (hu : UniqueKeys v) :
    (¬ Holds128 v → buffer v = .ok v) ∧ (Holds128 v → ∃ e, buffer v = .err e) := by
  rw [← not_not (a := Holds128 v), ← no128_iff, not_not]
  exact buffer_cases v hu

/-! ## Structs and tuples in the buffer -/

theorem bufFields_map {owned : Bool} {fs : List RField} {m : Entries} {ds : List (String × Data)} :
    bufFields owned fs (.map m) = .ok ds ↔ deStruct (fs.map (RField.bufferedDec owned)) (.map m) = .ok (.struct ds) := by
  simp only [bufFields, deStruct, bind_eq_ok, Outcome.ok.injEq, Data.struct.injEq]
  constructor
  · rintro ⟨acc, h1, h2⟩; exact ⟨acc, h1, ds, h2, rfl⟩
  · rintro ⟨acc, h1, ds', h2, rfl⟩; exact ⟨acc, h1, h2⟩

theorem bufTuple_ok {decs : List Decoder} {xs : List Value} {ds : List Data} :
    bufTuple decs xs = .ok ds ↔ xs.length = decs.length ∧ ds.length = decs.length ∧
      ∀ (j : Nat) dec x y, decs[j]? = some dec → xs[j]? = some x → ds[j]? = some y → dec x = .ok y := by
  unfold bufTuple
  rw [bind_eq_ok]
  constructor
  · rintro ⟨ys, h1, h2⟩
    split at h2
    · rename_i hle
      cases h2
      obtain ⟨zs, e, a1, a2, a3⟩ := (deTupleLoop_ok decs xs 0 [] ds).1 h1
      rw [List.nil_append] at e
      subst e
      exact ⟨by omega, a1, a3⟩
    · cases h2
  · rintro ⟨h1, h2, h3⟩
    exact ⟨ds, (deTupleLoop_ok decs xs 0 [] ds).2 ⟨ds, rfl, h2, by omega, h3⟩, by rw [if_pos (by omega)]⟩

theorem eachReads_iff {owned : Bool} {rs : List Reader} {xs : List Value} {ds : List Data} :
    bufTuple (rs.map fun r => r.buffered owned) xs = .ok ds ↔ EachReads owned rs xs ds := by
  rw [bufTuple_ok]
  unfold EachReads
  rw [List.length_map]
  refine and_congr_right fun _ => and_congr_right fun _ => ?_
  constructor
  · intro h j r x d hr hx hd
    exact h j _ x d (by rw [List.getElem?_map, hr]; rfl) hx hd
  · intro h j dec x d hr hx hd
    rw [List.getElem?_map] at hr
    cases hrj : rs[j]? with
    | none => rw [hrj] at hr; cases hr
    | some r => rw [hrj] at hr; cases hr; exact h j r x d hrj hx hd

theorem fields_iff {owned : Bool} {fs : List RField} (hf : (fs.map RField.name).Nodup) {m : Entries} (hn : (m.map Prod.fst).Nodup)
    {ds : List (String × Data)} :
    deStruct (fs.map (RField.bufferedDec owned)) (.map m) = .ok (.struct ds) ↔
      List.Forall₂ (fun f nd => nd.1 = f.name ∧ FieldReads owned (.map m) f nd.2) fs ds := by
  rw [deStruct_ok _ (by rw [List.map_map]; exact hf) m hn]
  simp only [Data.struct.injEq, exists_eq_left', List.forall₂_map_left_iff]
  have : ∀ (f : RField) (nd : String × Data),
      (nd.1 = (f.bufferedDec owned).name ∧ (match hmGet m (f.bufferedDec owned).name with
        | some v => (f.bufferedDec owned).dec v | none => (f.bufferedDec owned).missing) = .ok nd.2) ↔
      (nd.1 = f.name ∧ FieldReads owned (.map m) f nd.2) := by
    intro f nd
    refine and_congr_right fun _ => ?_
    unfold FieldReads
    rw [child_key_map]
    show (match hmGet m f.name with | some v => f.reader.buffered owned v | none => f.missing) = _ ↔ _
    cases hmGet m f.name <;> simp
  constructor
  · intro h; exact h.imp fun f nd => (this f nd).1
  · intro h; exact h.imp fun f nd => (this f nd).2

theorem fieldsRead_iff {owned : Bool} {fs : List RField} (hf : (fs.map RField.name).Nodup) {v : Value} (hu : UniqueKeys v)
    {ds : List (String × Data)} : bufFields owned fs v = .ok ds ↔ FieldsRead owned fs v ds := by
  cases v with
  | map m =>
    rw [bufFields_map, fields_iff hf (uniqueKeys_map.1 hu).1]
    exact ⟨fun h => .map ds rfl h, fun h => by cases h with | map _ _ h => exact h | seq _ _ hv _ => cases hv⟩
  | array xs =>
    have e : (fs.map fun f => f.reader.buffered owned) = (fs.map RField.reader).map fun r => r.buffered owned := by
      rw [List.map_map]; rfl
    rw [bufFields, bind_eq_ok, e]
    constructor
    · rintro ⟨zs, h1, h2⟩
      cases h2
      exact .seq xs zs rfl (eachReads_iff.1 h1)
    · intro h
      cases h with
      | map _ hm _ => cases hm
      | seq _ zs hv h => cases hv; exact ⟨zs, eachReads_iff.2 h, rfl⟩
  | _ =>
    simp only [bufFields]
    constructor
    · intro h; cases h
    · intro h
      cases h with
      | map _ hm _ => cases hm
      | seq _ _ hv _ => cases hv

theorem bufFields_noPanic {owned : Bool} {fs : List RField} (h : ∀ f ∈ fs, Calm f.reader ∧ f.missing ≠ .panic) (v : Value) :
    bufFields owned fs v ≠ .panic := by
  have hd : ∀ (x : Value), ∀ fd ∈ fs.map (RField.bufferedDec owned), fd.dec x ≠ .panic ∧ fd.missing ≠ .panic := by
    intro x fd hfd
    obtain ⟨f, hf, rfl⟩ := List.mem_map.1 hfd
    exact ⟨(h f hf).1 owned x, (h f hf).2⟩
  cases v with
  | map m =>
    simp only [bufFields, ne_eq, bind_eq_panic]
    rintro (h1 | ⟨a, _, h1⟩)
    · exact deStructLoop_noPanic _ _ (fun e _ fd hfd => (hd e.2 fd hfd).1) _ h1
    · exact deStructFinish_noPanic _ _ (fun fd hfd => (hd .none fd hfd).2) h1
  | array xs =>
    simp only [bufFields, bufTuple, ne_eq, bind_eq_panic]
    rintro ((h1 | ⟨a, _, h1⟩) | ⟨a, _, h1⟩)
    · refine deTupleLoop_noPanic _ _ _ _ ?_ h1
      intro dec hdec x _
      obtain ⟨f, hf, rfl⟩ := List.mem_map.1 hdec
      exact (h f hf).1 owned x
    · split at h1 <;> cases h1
    · cases h1
  | _ => simp [bufFields]

theorem bufTuple_noPanic {owned : Bool} {rs : List Reader} (h : ∀ r ∈ rs, Calm r) (xs : List Value) :
    bufTuple (rs.map fun r => r.buffered owned) xs ≠ .panic := by
  simp only [bufTuple, ne_eq, bind_eq_panic]
  rintro (h1 | ⟨a, _, h1⟩)
  · refine deTupleLoop_noPanic _ _ _ _ ?_ h1
    intro dec hdec x _
    obtain ⟨r, hr, rfl⟩ := List.mem_map.1 hdec
    exact h r hr owned x
  · split at h1 <;> cases h1

/-! ## Untagged enums -/

theorem tryVariant_iff {va : Variant} (hs : ShapeFine va.shape) {v : Value} (hu : UniqueKeys v) {d : Data} :
    tryVariant va v = .ok d ↔ Fits va v d := by
  unfold tryVariant
  cases hsh : va.shape with
  | unit =>
    constructor
    · intro h
      cases v with
      | none => cases h; exact .unit hsh rfl
      | _ => cases h
    · intro h
      cases h with
      | unit _ hv => subst hv; rfl
      | _ => simp_all
  | newtype r =>
    simp only [bind_eq_ok]
    constructor
    · rintro ⟨x, h1, h2⟩; cases h2; exact .newtype r x hsh h1
    · intro h
      cases h with
      | newtype r' x hs' h => rw [hsh] at hs'; cases hs'; exact ⟨x, h, rfl⟩
      | _ => simp_all
  | tuple rs =>
    constructor
    · intro h
      cases v with
      | array xs =>
        obtain ⟨ds, h1, h2⟩ := bind_eq_ok.1 h
        cases h2
        exact .tuple rs xs ds hsh rfl (eachReads_iff.1 h1)
      | _ => cases h
    · intro h
      cases h with
      | tuple rs' xs ds hs' hv h =>
        rw [hsh] at hs'; cases hs'; subst hv
        exact bind_eq_ok.2 ⟨ds, eachReads_iff.2 h, rfl⟩
      | _ => simp_all
  | struct fs =>
    rw [hsh] at hs
    simp only [bind_eq_ok]
    constructor
    · rintro ⟨ds, h1, h2⟩; cases h2; exact .struct fs ds hsh ((fieldsRead_iff hs.1 hu).1 h1)
    · intro h
      cases h with
      | struct fs' ds hs' h => rw [hsh] at hs'; cases hs'; exact ⟨ds, (fieldsRead_iff hs.1 hu).2 h, rfl⟩
      | _ => simp_all

theorem tryVariant_noPanic {va : Variant} (hs : ShapeFine va.shape) (v : Value) : tryVariant va v ≠ .panic := by
  unfold tryVariant
  cases hsh : va.shape with
  | unit => cases v <;> simp [badContent]
  | newtype r =>
    rw [hsh] at hs
    simp only [ne_eq, bind_eq_panic]
    rintro (h | ⟨a, _, h⟩)
    · exact hs false v h
    · cases h
  | tuple rs =>
    rw [hsh] at hs
    cases v with
    | array xs =>
      simp only [ne_eq, bind_eq_panic]
      rintro (h | ⟨a, _, h⟩)
      · exact bufTuple_noPanic hs xs h
      · cases h
    | _ => simp [badContent]
  | struct fs =>
    rw [hsh] at hs
    simp only [ne_eq, bind_eq_panic]
    rintro (h | ⟨a, _, h⟩)
    · exact bufFields_noPanic hs.2 v h
    · cases h

theorem tryVariants_iff {vs : List Variant} (hs : ∀ va ∈ vs, ShapeFine va.shape) {v : Value} (hu : UniqueKeys v) {d : Data} :
    tryVariants vs v = .ok d ↔ ∃ pre va post, vs = pre ++ va :: post ∧ Fits va v d ∧ ∀ a ∈ pre, ∀ d', ¬ Fits a v d' := by
  induction vs with
  | nil => simp [tryVariants]
  | cons a r ih =>
    have ha := hs a (by simp)
    have ih := ih (fun va h => hs va (by simp [h]))
    rw [tryVariants]
    cases ht : tryVariant a v with
    | ok d0 =>
      have hf := (tryVariant_iff ha hu).1 ht
      simp only [Outcome.ok.injEq]
      constructor
      · rintro rfl; exact ⟨[], a, r, rfl, hf, by simp⟩
      · rintro ⟨pre, va, post, e, h1, h2⟩
        cases pre with
        | nil =>
          simp only [List.nil_append, List.cons.injEq] at e
          obtain ⟨rfl, -⟩ := e
          have := (tryVariant_iff ha hu).2 h1
          rw [ht] at this
          cases this; rfl
        | cons b pre =>
          simp only [List.cons_append, List.cons.injEq] at e
          obtain ⟨rfl, -⟩ := e
          exact absurd hf (h2 a (by simp) d0)
    | err e =>
      have hno : ∀ d', ¬ Fits a v d' := by
        intro d' h
        rw [(tryVariant_iff ha hu).2 h] at ht
        cases ht
      simp only [ih]
      constructor
      · rintro ⟨pre, va, post, rfl, h1, h2⟩
        refine ⟨a :: pre, va, post, rfl, h1, ?_⟩
        intro b hb
        rcases List.mem_cons.1 hb with rfl | hb
        · exact hno
        · exact h2 b hb
      · rintro ⟨pre, va, post, e, h1, h2⟩
        cases pre with
        | nil =>
          simp only [List.nil_append, List.cons.injEq] at e
          obtain ⟨rfl, -⟩ := e
          exact absurd h1 (hno d)
        | cons b pre =>
          simp only [List.cons_append, List.cons.injEq] at e
          obtain ⟨rfl, rfl⟩ := e
          exact ⟨pre, va, post, rfl, h1, fun c hc => h2 c (by simp [hc])⟩
    | panic => exact absurd ht (tryVariant_noPanic ha v)

theorem tryVariants_noPanic {vs : List Variant} (hs : ∀ va ∈ vs, ShapeFine va.shape) (v : Value) : tryVariants vs v ≠ .panic := by
  induction vs with
  | nil => simp [tryVariants]
  | cons a r ih =>
    rw [tryVariants]
    cases ht : tryVariant a v with
    | ok d => simp
    | err e => exact ih fun va h => hs va (by simp [h])
    | panic => exact absurd ht (tryVariant_noPanic (hs a (by simp)) v)

/-- **C91**, untagged enums: reading succeeds exactly if no 128-bit integer sits anywhere in the value and some variant fits; the result is the first one that fits. It
never panics. -/
theorem C91_untagged (vs : List Variant) (hs : ∀ va ∈ vs, ShapeFine va.shape) (v : Value) (hu : UniqueKeys v) :
    (∀ d, (Reader.untagged vs).direct v = .ok d ↔
      ¬ Holds128 v ∧ ∃ pre va post, vs = pre ++ va :: post ∧ Fits va v d ∧ ∀ a ∈ pre, ∀ d', ¬ Fits a v d') ∧
    (Reader.untagged vs).direct v ≠ .panic := by
  obtain ⟨b1, b2⟩ := C91_buffer v hu
  by_cases h : Holds128 v
  · obtain ⟨e, he⟩ := b2 h
    constructor
    · intro d
      simp only [Reader.untagged, he, h, not_true, false_and, iff_false]
      intro h; cases h
    · simp [Reader.untagged, he]
  · constructor
    · intro d
      simp only [Reader.untagged, b1 h, Outcome.bind_ok, h, not_false_eq_true, true_and]
      exact tryVariants_iff hs hu
    · simp only [Reader.untagged, b1 h, Outcome.bind_ok]
      exact tryVariants_noPanic hs v

/-! ## Internally tagged enums -/

theorem taggedLoop_iff {tag : String} {ident : Value → Outcome ModelError Variant} (m : Entries) (hn : (m.map Prod.fst).Nodup) : ∀ found rest r,
    (∀ e ∈ m, UniqueKeys e.2) → (found.isSome = true → tag ∉ m.map Prod.fst) →
    (taggedLoop tag ident buffer found rest m = .ok r ↔
      r.2 = rest ++ m.filter (fun e => !(e.1 == tag)) ∧ (∀ e ∈ m, e.1 ≠ tag → No128 e.2) ∧
      match hmGet m tag with
      | some x => ∃ va, ident x = .ok va ∧ r.1 = some va
      | none => r.1 = found) := by
  induction m with
  | nil =>
    intro found rest r _ _
    simp only [taggedLoop, Outcome.ok.injEq, List.filter_nil, List.append_nil, List.not_mem_nil, false_implies, implies_true, true_and, hmGet_nil]
    constructor
    · rintro rfl; exact ⟨rfl, rfl⟩
    · rintro ⟨h1, h2⟩; exact Prod.ext h2.symm h1.symm
  | cons e m ih =>
    intro found rest r hu hf
    obtain ⟨k, x⟩ := e
    simp only [List.map_cons, List.nodup_cons] at hn
    have ih := ih hn.2
    have hux : UniqueKeys x := hu (k, x) (by simp)
    have hu' : ∀ e ∈ m, UniqueKeys e.2 := fun e he => hu e (by simp [he])
    rw [taggedLoop, hmGet_cons]
    by_cases hk : k = tag
    · subst hk
      have hno : hmGet m k = none := hmGet_eq_none.2 hn.1
      have hfound : found.isSome = false := by
        cases hb : found.isSome with
        | false => rfl
        | true => exact absurd (by simp) (hf hb)
      rw [if_pos rfl, if_pos rfl, hfound, if_neg (by simp)]
      simp only [bind_eq_ok]
      have filt : (((k, x) :: m).filter fun e => !(e.1 == k)) = m.filter fun e => !(e.1 == k) := by
        rw [List.filter_cons_of_neg]; simp
      rw [filt]
      constructor
      · rintro ⟨va, h1, h2⟩
        obtain ⟨a1, a2, a3⟩ := (ih (some va) rest r hu' (fun _ => hn.1)).1 h2
        rw [hno] at a3
        refine ⟨a1, ?_, va, h1, a3⟩
        intro e he hne
        rcases List.mem_cons.1 he with rfl | he
        · exact absurd rfl hne
        · exact a2 e he hne
      · rintro ⟨a1, a2, va, h1, a3⟩
        refine ⟨va, h1, (ih (some va) rest r hu' (fun _ => hn.1)).2 ⟨a1, fun e he => a2 e (by simp [he]), ?_⟩⟩
        rw [hno]; exact a3
    · rw [if_neg hk, if_neg hk]
      have filt : (((k, x) :: m).filter fun e => !(e.1 == tag)) = (k, x) :: m.filter fun e => !(e.1 == tag) := by
        rw [List.filter_cons_of_pos]; simpa using hk
      have hf' : found.isSome = true → tag ∉ m.map Prod.fst := fun hb => by
        have := hf hb
        simp only [List.map_cons, List.mem_cons, not_or] at this
        exact this.2
      rw [filt]
      simp only [bind_eq_ok]
      constructor
      · rintro ⟨y, h1, h2⟩
        have hx : No128 x := by
          by_cases hx : No128 x
          · exact hx
          · obtain ⟨e, he⟩ := (buffer_cases x hux).2 hx
            rw [he] at h1; cases h1
        rw [(buffer_cases x hux).1 hx] at h1
        cases h1
        obtain ⟨a1, a2, a3⟩ := (ih found (rest ++ [(k, x)]) r hu' hf').1 h2
        refine ⟨by rw [a1]; simp, ?_, a3⟩
        intro e he hne
        rcases List.mem_cons.1 he with rfl | he
        · exact hx
        · exact a2 e he hne
      · rintro ⟨a1, a2, a3⟩
        have hx : No128 x := a2 (k, x) (by simp) hk
        exact ⟨x, (buffer_cases x hux).1 hx, (ih found (rest ++ [(k, x)]) r hu' hf').2
          ⟨by rw [a1]; simp, fun e he => a2 e (by simp [he]), a3⟩⟩

theorem taggedVariant_iff {va : Variant} (hs : ShapeFine va.shape) {rest : Value} (hu : UniqueKeys rest) {d : Data} :
    taggedVariant va rest = .ok d ↔ RestReads va rest d := by
  unfold taggedVariant
  cases hsh : va.shape with
  | unit =>
    constructor
    · intro h; cases h; exact .unit hsh
    · intro h
      cases h with
      | unit _ => rfl
      | _ => simp_all
  | newtype r =>
    simp only [bind_eq_ok]
    constructor
    · rintro ⟨x, h1, h2⟩; cases h2; exact .newtype r x hsh h1
    · intro h
      cases h with
      | newtype r' x hs' h => rw [hsh] at hs'; cases hs'; exact ⟨x, h, rfl⟩
      | _ => simp_all
  | tuple rs =>
    constructor
    · intro h; cases h
    · intro h
      cases h <;> simp_all
  | struct fs =>
    rw [hsh] at hs
    simp only [bind_eq_ok]
    constructor
    · rintro ⟨ds, h1, h2⟩; cases h2; exact .struct fs ds hsh ((fieldsRead_iff hs.1 hu).1 h1)
    · intro h
      cases h with
      | struct fs' ds hs' h => rw [hsh] at hs'; cases hs'; exact ⟨ds, (fieldsRead_iff hs.1 hu).2 h, rfl⟩
      | _ => simp_all

theorem uniqueKeys_filter {m : Entries} (hu : UniqueKeys (.map m)) (p : String × Value → Bool) : UniqueKeys (.map (m.filter p)) := by
  obtain ⟨h1, h2⟩ := uniqueKeys_map.1 hu
  exact uniqueKeys_map.2 ⟨h1.sublist (List.filter_sublist.map _), fun e he => h2 e (List.mem_filter.1 he).1⟩

theorem findVariant_ok {vs : List Variant} {n : String} {va : Variant} :
    findVariant vs n = .ok va ↔ vs.find? (fun v => v.name == n) = some va := by
  unfold findVariant
  cases vs.find? (fun v => v.name == n) <;> simp

theorem without_map (m : Entries) (ks : List String) : without (.map m) ks = m.filter fun e => !ks.contains e.1 := rfl

/-- **C91**, internally tagged enums, read from a map: the tag is there and its text is the name of a variant, nothing else in the map contains a 128-bit
integer, and that variant is read from the other entries. -/
theorem C91_tagged (tag : String) (vs : List Variant) (hs : ∀ va ∈ vs, ShapeFine va.shape) (v : Value) (hu : UniqueKeys v) (hm : v.isMap = true)
    (d : Data) :
    (Reader.tagged tag vs).direct v = .ok d ↔
      ∃ x name va, child v (.key tag) = some x ∧ x.tryInto .string = .ok name ∧ vs.find? (fun a => a.name == name) = some va ∧
        (∀ k y, k ≠ tag → child v (.key k) = some y → ¬ Holds128 y) ∧ RestReads va (.map (without v [tag])) d := by
  cases v with
  | map m =>
    obtain ⟨hn, hue⟩ := uniqueKeys_map.1 hu
    have hw : without (.map m) [tag] = m.filter fun e => !(e.1 == tag) := by
      rw [without_map]
      congr 1
      funext e
      by_cases h : e.1 = tag <;> simp [h]
    have h128 : (∀ e ∈ m, e.1 ≠ tag → No128 e.2) ↔ ∀ k y, k ≠ tag → child (.map m) (.key k) = some y → ¬ Holds128 y := by
      constructor
      · intro h k y hk hc
        rw [← no128_iff]
        exact h (k, y) ((child_mem hn).1 hc) hk
      · intro h e he hk
        rw [no128_iff]
        exact h e.1 e.2 hk ((child_mem hn).2 he)
    have hur := uniqueKeys_filter hu fun e => !(e.1 == tag)
    simp only [Reader.tagged, readTagged, bind_eq_ok]
    rw [hw, ← h128]
    constructor
    · rintro ⟨p, h1, h2⟩
      obtain ⟨a1, a2, a3⟩ := (taggedLoop_iff m hn none [] p hue (by simp)).1 h1
      cases hg : hmGet m tag with
      | none => rw [hg] at a3; rw [a3] at h2; cases h2
      | some x =>
        rw [hg] at a3
        obtain ⟨va, b1, b2⟩ := a3
        obtain ⟨name, b3, b4⟩ := bind_eq_ok.1 b1
        have b4 := findVariant_ok.1 b4
        rw [b2] at h2
        simp only [] at h2
        rw [a1, List.nil_append] at h2
        refine ⟨x, name, va, by rw [child_key_map, hg], ofExcept_ok.1 b3, b4, a2, ?_⟩
        exact (taggedVariant_iff (hs va (List.mem_of_find?_eq_some b4)) hur).1 h2
    · rintro ⟨x, name, va, h1, h2, h3, h4, h5⟩
      rw [child_key_map] at h1
      refine ⟨(some va, m.filter fun e => !(e.1 == tag)), (taggedLoop_iff m hn none [] _ hue (by simp)).2 ⟨by simp, h4, ?_⟩, ?_⟩
      · rw [h1]
        exact ⟨va, bind_eq_ok.2 ⟨name, ofExcept_ok.2 h2, findVariant_ok.2 h3⟩, rfl⟩
      · exact (taggedVariant_iff (hs va (List.mem_of_find?_eq_some h3)) hur).2 h5
  | _ => cases hm

/-! ## Flattened fields -/

/-- The key is one of the fields'. -/
def ownKey (fds : List FieldDec) (k : String) : Bool := fds.any fun fd => fd.name == k

theorem find_own {fds : List FieldDec} {k : String} :
    (∃ fd, fds.find? (fun fd => fd.name == k) = some fd ∧ ownKey fds k = true) ∨
    (fds.find? (fun fd => fd.name == k) = none ∧ ownKey fds k = false) := by
  cases h : fds.find? (fun fd => fd.name == k) with
  | some fd =>
    refine Or.inl ⟨fd, rfl, List.any_eq_true.2 ⟨fd, List.mem_of_find?_eq_some h, ?_⟩⟩
    simpa using List.find?_some h
  | none =>
    refine Or.inr ⟨rfl, ?_⟩
    rw [ownKey, List.any_eq_false]
    intro fd hfd
    simpa using List.find?_eq_none.1 h fd hfd

theorem flattenLoop_iff (fds : List FieldDec) (m : Entries) : ∀ acc rest p, (∀ e ∈ m, UniqueKeys e.2) →
    (flattenLoop fds buffer acc rest m = .ok p ↔
      p.2 = rest ++ m.filter (fun e => !ownKey fds e.1) ∧ (∀ e ∈ m, ownKey fds e.1 = false → No128 e.2) ∧
      deStructLoop fds acc (m.filter fun e => ownKey fds e.1) = .ok p.1) := by
  induction m with
  | nil =>
    intro acc rest p _
    simp only [flattenLoop, deStructLoop, List.filter_nil, Outcome.ok.injEq, List.append_nil, List.not_mem_nil, false_implies, implies_true, true_and]
    constructor
    · rintro rfl; exact ⟨rfl, rfl⟩
    · rintro ⟨h1, h2⟩; exact Prod.ext h2 h1.symm
  | cons e m ih =>
    intro acc rest p hu
    obtain ⟨k, x⟩ := e
    have hux : UniqueKeys x := hu (k, x) (by simp)
    have hu' : ∀ e ∈ m, UniqueKeys e.2 := fun e he => hu e (by simp [he])
    rw [flattenLoop]
    rcases find_own (fds := fds) (k := k) with ⟨fd, h1, h2⟩ | ⟨h1, h2⟩
    · have f1 : (((k, x) :: m).filter fun e => !ownKey fds e.1) = m.filter fun e => !ownKey fds e.1 := by
        rw [List.filter_cons_of_neg]; simp [h2]
      have f2 : (((k, x) :: m).filter fun e => ownKey fds e.1) = (k, x) :: m.filter fun e => ownKey fds e.1 := by
        rw [List.filter_cons_of_pos]; simp [h2]
      rw [f1, f2, deStructLoop, string_self, Outcome.bind_ok, h1]
      simp only []
      have hall : (∀ e ∈ (k, x) :: m, ownKey fds e.1 = false → No128 e.2) ↔ ∀ e ∈ m, ownKey fds e.1 = false → No128 e.2 := by
        constructor
        · intro h e he; exact h e (by simp [he])
        · intro h e he
          rcases List.mem_cons.1 he with rfl | he
          · intro h'; rw [h2] at h'; cases h'
          · exact h e he
      rw [hall]
      split
      · simp
      · simp only [bind_eq_ok]
        constructor
        · rintro ⟨d, g1, g2⟩
          obtain ⟨a1, a2, a3⟩ := (ih _ _ _ hu').1 g2
          exact ⟨a1, a2, d, g1, a3⟩
        · rintro ⟨a1, a2, d, g1, a3⟩
          exact ⟨d, g1, (ih _ _ _ hu').2 ⟨a1, a2, a3⟩⟩
    · have f1 : (((k, x) :: m).filter fun e => !ownKey fds e.1) = (k, x) :: m.filter fun e => !ownKey fds e.1 := by
        rw [List.filter_cons_of_pos]; simp [h2]
      have f2 : (((k, x) :: m).filter fun e => ownKey fds e.1) = m.filter fun e => ownKey fds e.1 := by
        rw [List.filter_cons_of_neg]; simp [h2]
      rw [f1, f2, h1]
      simp only [bind_eq_ok]
      constructor
      · rintro ⟨y, g1, g2⟩
        have hx : No128 x := by
          by_cases hx : No128 x
          · exact hx
          · obtain ⟨e, he⟩ := (buffer_cases x hux).2 hx
            rw [he] at g1; cases g1
        rw [(buffer_cases x hux).1 hx] at g1
        cases g1
        obtain ⟨a1, a2, a3⟩ := (ih _ _ _ hu').1 g2
        refine ⟨by rw [a1]; simp, ?_, a3⟩
        intro e he
        rcases List.mem_cons.1 he with rfl | he
        · exact fun _ => hx
        · exact a2 e he
      · rintro ⟨a1, a2, a3⟩
        have hx : No128 x := a2 (k, x) (by simp) h2
        exact ⟨x, (buffer_cases x hux).1 hx, (ih _ _ _ hu').2 ⟨by rw [a1]; simp, fun e he => a2 e (by simp [he]), a3⟩⟩

theorem hmGet_filter_keys {m : Entries} (p : String → Bool) (k : String) :
    hmGet (m.filter fun e => p e.1) k = if p k = true then hmGet m k else none := by
  induction m with
  | nil => simp [hmGet]
  | cons e m ih =>
    obtain ⟨k', x⟩ := e
    by_cases hp : p k' = true
    · rw [List.filter_cons_of_pos (by exact hp), hmGet_cons, hmGet_cons, ih]
      by_cases hk : k' = k
      · subst hk; simp [hp]
      · simp [hk]
    · rw [List.filter_cons_of_neg (by exact hp), hmGet_cons, ih]
      by_cases hk : k' = k
      · subst hk; simp [hp]
      · simp [hk]

theorem mapReads_iff (dec : Decoder) (m : Entries) (hn : (m.map Prod.fst).Nodup) (d : Data) :
    (deMapLoop .string dec [] m >>= fun es => (Outcome.ok (.map (es.map fun e => (e.1.toData, e.2))) : Outcome ModelError Data)) = .ok d ↔
      ∃ es, d = .map es ∧ List.Forall₂ (fun e (x : Data × Data) => x.1 = .str e.1 ∧ dec e.2 = .ok x.2) m es := by
  have fresh : ∀ (kds acc : List (Key × Data)), ((acc ++ kds).map Prod.fst).Nodup → keyInsAll acc kds = acc ++ kds := by
    intro kds
    induction kds with
    | nil => intro acc _; simp [keyInsAll]
    | cons e r ih =>
      intro acc h
      have ins : ∀ acc : List (Key × Data), e.1 ∉ acc.map Prod.fst → keyInsert acc e.1 e.2 = acc ++ [(e.1, e.2)] := by
        intro acc
        induction acc with
        | nil => intro _; rfl
        | cons a acc ih2 =>
          intro hno
          simp only [List.map_cons, List.mem_cons, not_or] at hno
          obtain ⟨a1, a2⟩ := a
          rw [keyInsert, if_neg (fun h => hno.1 h.symm), ih2 hno.2]; rfl
      have hno : e.1 ∉ acc.map Prod.fst := by
        rw [List.map_append, List.nodup_append] at h
        intro hmem
        exact h.2.2 _ hmem e.1 (by simp) rfl
      show keyInsAll (keyInsert acc e.1 e.2) r = _
      rw [ins acc hno, ih]
      · simp
      · simpa using h
  simp only [bind_eq_ok, Outcome.ok.injEq]
  constructor
  · rintro ⟨es, h1, h2⟩
    obtain ⟨kds, h3, h4⟩ := (deMapLoop_ok .string dec m [] es).1 h1
    have hkeys : kds.map Prod.fst = (m.map Prod.fst).map Key.str := by
      clear h1 h2 h4 hn
      induction h3 with
      | nil => rfl
      | cons h _ ih =>
        have g := h.1
        change Outcome.ok (Key.str _) = Outcome.ok _ at g
        simp only [Outcome.ok.injEq] at g
        simp [← g, ih]
    have hnk : (kds.map Prod.fst).Nodup := by
      rw [hkeys]
      exact List.Nodup.map (fun a b h => by cases h; rfl) hn
    rw [fresh kds [] (by simpa using hnk), List.nil_append] at h4
    subst h4
    refine ⟨_, h2.symm, ?_⟩
    rw [List.forall₂_map_right_iff]
    refine h3.imp ?_
    rintro e kd ⟨g1, g2⟩
    change Outcome.ok (Key.str e.1) = Outcome.ok kd.1 at g1
    simp only [Outcome.ok.injEq] at g1
    exact ⟨by show kd.1.toData = _; rw [← g1]; rfl, g2⟩
  · rintro ⟨es, rfl, h⟩
    let kds : List (Key × Data) := List.zipWith (fun (e : String × Value) (x : Data × Data) => (Key.str e.1, x.2)) m es
    have h3 : List.Forall₂ (fun e kd => deKey .string e.1 = .ok kd.1 ∧ dec e.2 = .ok kd.2) m kds := by
      show List.Forall₂ _ m (List.zipWith _ m es)
      clear hn
      induction h with
      | nil => exact .nil
      | cons g _ ih => exact .cons ⟨rfl, g.2⟩ ih
    have hkeys : kds.map Prod.fst = (m.map Prod.fst).map Key.str := by
      show (List.zipWith _ m es).map Prod.fst = _
      clear hn h3
      induction h with
      | nil => rfl
      | cons g _ ih => simp [ih]
    have hnk : (kds.map Prod.fst).Nodup := by
      rw [hkeys]
      exact List.Nodup.map (fun a b h => by cases h; rfl) hn
    refine ⟨kds, (deMapLoop_ok .string dec m [] kds).2 ⟨kds, h3, by rw [fresh kds [] (by simpa using hnk)]; rfl⟩, ?_⟩
    show Data.map ((List.zipWith _ m es).map _) = _
    congr 1
    clear hn h3 hkeys hnk
    induction h with
    | nil => rfl
    | cons g _ ih =>
      simp only [List.zipWith_cons_cons, List.map_cons, ih, List.cons.injEq, and_true]
      exact Prod.ext g.1.symm rfl

theorem parts_iff {m : Entries} (hu : UniqueKeys (.map m)) (parts : List (String × Part)) :
    (∀ n gs, (n, Part.struct gs) ∈ parts → (gs.map RField.name).Nodup) → ∀ taken ps,
    (flattenParts (without (.map m) taken) parts = .ok ps ↔ PartsGet (.map m) taken parts ps) := by
  induction parts with
  | nil =>
    intro _ taken ps
    rw [flattenParts]
    constructor
    · intro h; cases h; exact .nil taken
    · intro h; cases h; rfl
  | cons part parts ih =>
    intro hp taken ps
    have ih := ih fun n gs h => hp n gs (by simp [h])
    have hur : UniqueKeys (.map (without (.map m) taken)) := uniqueKeys_filter hu _
    have hnr := (uniqueKeys_map.1 hur).1
    obtain ⟨name, part⟩ := part
    cases part with
    | struct fs =>
      have hf := hp name fs (by simp)
      rw [flattenParts]
      have hown : ((without (.map m) taken).filter fun e => fs.any fun f => f.name == e.1) =
          (without (.map m) taken).filter fun e => (fun k => fs.any fun f => f.name == k) e.1 := rfl
      have hrest : ((without (.map m) taken).filter fun e => !(fs.any fun f => f.name == e.1)) = without (.map m) (taken ++ fs.map RField.name) := by
        rw [without_map, without_map, List.filter_filter]
        congr 1
        funext e
        have : (fs.any fun f => f.name == e.1) = (fs.map RField.name).contains e.1 := by
          rw [Bool.eq_iff_iff]
          simp only [List.any_eq_true, beq_iff_eq, List.contains_iff_mem, List.mem_map]
        rw [this]
        simp only [List.contains_eq_mem, List.mem_append, Bool.decide_or, Bool.not_or]
        rw [Bool.and_comm]
      have hfr : ∀ f ∈ fs, ∀ d, FieldReads true (.map ((without (.map m) taken).filter fun e => fs.any fun f => f.name == e.1)) f d ↔
          FieldReads true (.map (without (.map m) taken)) f d := by
        intro f hf d
        unfold FieldReads
        rw [child_key_map, child_key_map, hown, hmGet_filter_keys (m := without (.map m) taken) (fun k => fs.any fun f => f.name == k) f.name,
          if_pos (List.any_eq_true.2 ⟨f, hf, by simp⟩)]
      have hbody : ∀ ds, (deStructLoop (fs.map (RField.bufferedDec true)) [] ((without (.map m) taken).filter fun e => fs.any fun f => f.name == e.1) >>=
            fun acc => deStructFinish acc (fs.map (RField.bufferedDec true))) = .ok ds ↔
          List.Forall₂ (fun f nd => nd.1 = f.name ∧ FieldReads true (.map (without (.map m) taken)) f nd.2) fs ds := by
        intro ds
        have h1 : (deStructLoop (fs.map (RField.bufferedDec true)) [] ((without (.map m) taken).filter fun e => fs.any fun f => f.name == e.1) >>=
            fun acc => deStructFinish acc (fs.map (RField.bufferedDec true))) =
            bufFields true fs (.map ((without (.map m) taken).filter fun e => fs.any fun f => f.name == e.1)) := rfl
        rw [h1, bufFields_map, fields_iff hf (hnr.sublist (List.filter_sublist.map _))]
        constructor
        · intro h
          refine forall2_of_index (forall2_index h).1 fun i f nd hfi hnd => ?_
          obtain ⟨e1, e2⟩ := (forall2_index h).2 i f nd hfi hnd
          exact ⟨e1, (hfr f (List.mem_of_getElem? hfi) _).1 e2⟩
        · intro h
          refine forall2_of_index (forall2_index h).1 fun i f nd hfi hnd => ?_
          obtain ⟨e1, e2⟩ := (forall2_index h).2 i f nd hfi hnd
          exact ⟨e1, (hfr f (List.mem_of_getElem? hfi) _).2 e2⟩
      rw [bind_eq_ok]
      simp only [hrest, bind_eq_ok]
      constructor
      · rintro ⟨ds, h1, ps', h2, h3⟩
        cases h3
        exact .struct taken name fs ds parts ps' ((hbody ds).1 (bind_eq_ok.2 h1)) ((ih _ _).1 h2)
      · intro h
        cases h with
        | struct _ _ _ ds _ ps' h1 h2 => exact ⟨ds, bind_eq_ok.1 ((hbody ds).2 h1), ps', (ih _ _).2 h2, rfl⟩
    | rest r =>
      rw [flattenParts, bind_eq_ok]
      simp only [bind_eq_ok]
      constructor
      · rintro ⟨d, h1, ps', h2, h3⟩
        cases h3
        obtain ⟨es, rfl, h4⟩ := (mapReads_iff (r.buffered false) _ hnr d).1 h1
        exact .rest taken name r es parts ps' h4 ((ih _ _).1 h2)
      · intro h
        cases h with
        | rest _ _ _ es _ ps' h1 h2 => exact ⟨.map es, (mapReads_iff (r.buffered false) _ hnr _).2 ⟨es, rfl, h1⟩, ps', (ih _ _).2 h2, rfl⟩

/-- **C91**, flattened fields: a struct with own fields and flattened ones is read from a map exactly if each own field can be read directly (or may be absent),
no other entry contains a 128-bit integer, and the flattened fields can be read, in order, from a buffer of the other entries. -/
theorem C91_flatten (fs : List RField) (hf : (fs.map RField.name).Nodup) (parts : List (String × Part))
    (hp : ∀ n gs, (n, Part.struct gs) ∈ parts → (gs.map RField.name).Nodup) (v : Value) (hu : UniqueKeys v) (hm : v.isMap = true) (d : Data) :
    (Reader.flatten fs parts).direct v = .ok d ↔ ∃ ds ps, d = .struct (ds ++ ps) ∧
      List.Forall₂ (fun f nd => nd.1 = f.name ∧ (∀ x, child v (.key f.name) = some x → f.reader.direct x = .ok nd.2) ∧
        (child v (.key f.name) = none → f.missing = .ok nd.2)) fs ds ∧
      (∀ k y, k ∉ fs.map RField.name → child v (.key k) = some y → ¬ Holds128 y) ∧
      PartsGet v (fs.map RField.name) parts ps := by
  cases v with
  | map m =>
    obtain ⟨hn, hue⟩ := uniqueKeys_map.1 hu
    have hown : ∀ k, ownKey (fs.map RField.directDec) k = (fs.map RField.name).contains k := by
      intro k
      rw [Bool.eq_iff_iff]
      simp only [ownKey, List.any_map, List.any_eq_true, beq_iff_eq, List.contains_iff_mem, List.mem_map, Function.comp]
      rfl
    have hwo : (m.filter fun e => !ownKey (fs.map RField.directDec) e.1) = without (.map m) (fs.map RField.name) := by
      rw [without_map]; congr 1; funext e; rw [hown]
    have h128 : (∀ e ∈ m, ownKey (fs.map RField.directDec) e.1 = false → No128 e.2) ↔
        ∀ k y, k ∉ fs.map RField.name → child (.map m) (.key k) = some y → ¬ Holds128 y := by
      have hno : ∀ k, ownKey (fs.map RField.directDec) k = false ↔ k ∉ fs.map RField.name := by
        intro k; rw [hown, List.contains_eq_mem, decide_eq_false_iff_not]
      constructor
      · intro h k y hk hc
        rw [← no128_iff]
        exact h (k, y) ((child_mem hn).1 hc) ((hno k).2 hk)
      · intro h e he hk
        rw [no128_iff]
        exact h e.1 e.2 ((hno e.1).1 hk) ((child_mem hn).2 he)
    have hfields : ∀ ds, deStruct (fs.map RField.directDec) (.map (m.filter fun e => ownKey (fs.map RField.directDec) e.1)) = .ok (.struct ds) ↔
        List.Forall₂ (fun f nd => nd.1 = f.name ∧ (∀ x, child (.map m) (.key f.name) = some x → f.reader.direct x = .ok nd.2) ∧
          (child (.map m) (.key f.name) = none → f.missing = .ok nd.2)) fs ds := by
      intro ds
      rw [deStruct_ok _ (by rw [List.map_map]; exact hf) _ (hn.sublist (List.filter_sublist.map _))]
      simp only [Data.struct.injEq, exists_eq_left', List.forall₂_map_left_iff]
      have one : ∀ f ∈ fs, ∀ nd : String × Data,
          (nd.1 = (RField.directDec f).name ∧ (match hmGet (m.filter fun e => ownKey (fs.map RField.directDec) e.1) (RField.directDec f).name with
            | some v => (RField.directDec f).dec v | none => (RField.directDec f).missing) = .ok nd.2) ↔
          (nd.1 = f.name ∧ (∀ x, child (.map m) (.key f.name) = some x → f.reader.direct x = .ok nd.2) ∧
            (child (.map m) (.key f.name) = none → f.missing = .ok nd.2)) := by
        intro f hfm nd
        refine and_congr_right fun _ => ?_
        rw [child_key_map, show (RField.directDec f).name = f.name from rfl, hmGet_filter_keys (m := m) (ownKey (fs.map RField.directDec)) f.name,
          if_pos (by rw [hown]; simpa using ⟨f, hfm, rfl⟩)]
        show (match hmGet m f.name with | some v => f.reader.direct v | none => f.missing) = _ ↔ _
        cases hmGet m f.name <;> simp
      constructor
      · intro h
        refine forall2_of_index (forall2_index h).1 fun i f nd hfi hnd => ?_
        exact (one f (List.mem_of_getElem? hfi) nd).1 ((forall2_index h).2 i f nd hfi hnd)
      · intro h
        refine forall2_of_index (forall2_index h).1 fun i f nd hfi hnd => ?_
        exact (one f (List.mem_of_getElem? hfi) nd).2 ((forall2_index h).2 i f nd hfi hnd)
    simp only [Reader.flatten, readFlatten, bind_eq_ok]
    constructor
    · rintro ⟨p, h1, ds, h2, ps, h3, h4⟩
      obtain ⟨a1, a2, a3⟩ := (flattenLoop_iff _ m [] [] p hue).1 h1
      cases h4
      rw [List.nil_append, hwo] at a1
      rw [a1] at h3
      refine ⟨ds, ps, rfl, (hfields ds).1 ?_, h128.1 a2, (parts_iff hu parts hp _ ps).1 h3⟩
      simp only [deStruct, bind_eq_ok]
      exact ⟨p.1, a3, ds, h2, rfl⟩
    · rintro ⟨ds, ps, rfl, h1, h2, h3⟩
      have h1 := (hfields ds).2 h1
      simp only [deStruct, bind_eq_ok] at h1
      obtain ⟨acc, g1, ds', g2, g3⟩ := h1
      cases g3
      refine ⟨(acc, without (.map m) (fs.map RField.name)), (flattenLoop_iff _ m [] [] _ hue).2 ⟨by rw [← hwo]; rfl, h128.2 h2, g1⟩, ds, g2, ps,
        (parts_iff hu parts hp _ ps).2 h3, rfl⟩
  | _ => cases hm

/-! ## What the buffer changes -/

/-- **C91**, the buffer converts nothing: a text is read from it neither as a number nor as a boolean, whatever the text. -/
theorem C91_text (owned : Bool) (s : String) :
    (∀ d, Reader.bool.buffered owned (.string s) ≠ .ok d) ∧ (∀ t d, (Reader.int t).buffered owned (.string s) ≠ .ok d) ∧
    (∀ d, Reader.f64.buffered owned (.string s) ≠ .ok d) ∧ (∀ d, Reader.f32.buffered owned (.string s) ≠ .ok d) ∧
    (∀ r ∈ [Reader.bool, Reader.f64, Reader.f32], (r.option.buffered owned (.string s) = .ok .none → False)) := by
  refine ⟨fun d h => ?_, fun t d h => ?_, fun d h => ?_, fun d h => ?_, fun r hr h => ?_⟩
  · cases h
  · cases t <;> cases h
  · cases h
  · cases h
  · simp only [List.mem_cons, List.not_mem_nil, or_false] at hr
    rcases hr with rfl | rfl | rfl <;> cases h

/-- **C91**, scalars: what the buffer gives a boolean, an integer, an `f64`, a character or a text is what reading directly gives. -/
theorem C91_scalars (P : Value → Prop) :
    Agrees P Reader.bool ∧ (∀ t, Agrees P (Reader.int t)) ∧ Agrees P Reader.f64 ∧ Agrees P Reader.char ∧ Agrees P Reader.string := by
  refine ⟨?_, ?_, ?_, ?_, ?_⟩
  · intro owned v d _ _ h
    cases v <;> first | cases h; done | skip
    exact h
  · intro t owned v d _ _ h
    have aux : ∀ n src, integerOf v = some (n, src) → t ≠ .i128 → t ≠ .u128 →
        (match t.tryFrom n with | some n => (Outcome.ok (.int t n) : Outcome ModelError Data) | none => badContent t.name) = .ok d →
        (Reader.int t).direct v = .ok d := by
      intro n src hi h1 h2 h
      cases ht : t.tryFrom n with
      | none => rw [ht] at h; cases h
      | some m =>
        rw [ht] at h
        cases h
        have hm : m.1 = n := by
          simp only [IntTy.tryFrom] at ht
          split at ht
          · cases ht; rfl
          · cases ht
        have hr : InRange t n := by
          by_contra hr
          rw [tryFrom_none hr] at ht; cases ht
        obtain ⟨r, g1, g2⟩ := (C23_int_to_int t v n src hi).1 hr
        have : r = m := Subtype.ext (by rw [g2, hm])
        subst this
        show (deInt t v >>= fun n => (Outcome.ok (Data.int t n) : Outcome ModelError Data)) = _
        rw [deInt_eq ⟨h1, h2⟩]
        show (Outcome.ofExcept (v.tryIntoInt t) >>= fun n => (Outcome.ok (Data.int t n) : Outcome ModelError Data)) = _
        rw [g1]; rfl
    cases t <;> first | (cases h; done) | skip
    all_goals cases v <;> first | (cases h; done) | exact aux _ _ rfl (by decide) (by decide) h
  · intro owned v d _ _ h
    cases v <;> first | cases h; done | exact h
  · intro owned v d _ _ h
    cases v <;> first | cases h; done | skip
    rename_i s _ _
    show (Outcome.ofExcept (Value.tryIntoChar (.string s)) >>= fun c => (Outcome.ok (Data.char c) : Outcome ModelError Data)) = _
    simp only [Reader.char] at h
    rw [Value.tryIntoChar]
    cases hs : s.toList with
    | nil => rw [hs] at h; cases h
    | cons c r =>
      rw [hs] at h
      cases r with
      | nil => exact h
      | cons _ _ => cases h
  · intro owned v d _ _ h
    cases v <;> first | cases h; done | exact h

/-- **C91**, containers: options, newtypes, lists, maps and structs made of types that agree do so too; structs where a list does not occur in their place
(the buffer takes the elements of a list as the struct's fields). -/
theorem C91_containers (P : Value → Prop) (hP : Hereditary P) (r : Reader) (hr : Agrees P r) :
    Agrees P (Reader.option r) ∧ Agrees P (Reader.newtype r) ∧ Agrees P (Reader.vec r) ∧ Agrees P (Reader.map r) ∧
    ∀ fs : List RField, (fs.map RField.name).Nodup → (∀ f ∈ fs, Agrees P f.reader) → Agrees (fun v => P v ∧ ∀ xs, v ≠ .array xs) (Reader.struct fs) := by
  refine ⟨?_, ?_, ?_, ?_, ?_⟩
  · intro owned v d hu hp h
    cases v <;> first
      | exact h
      | (simp only [Reader.option, bind_eq_ok] at h ⊢
         obtain ⟨x, h1, h2⟩ := h
         exact ⟨x, hr _ _ _ hu hp h1, h2⟩)
  · intro owned v d hu hp h
    simp only [Reader.newtype, bind_eq_ok] at h ⊢
    obtain ⟨x, h1, h2⟩ := h
    exact ⟨x, hr _ _ _ hu hp h1, h2⟩
  · intro owned v d hu hp h
    cases v <;> first | (cases h; done) | skip
    rename_i xs
    simp only [Reader.vec, bind_eq_ok, deVecLoop_ok] at h ⊢
    obtain ⟨ds, ⟨ys, h1, h2⟩, h3⟩ := h
    refine ⟨ds, ⟨ys, forall2_of_index (forall2_index h1).1 fun i x y hx hy => ?_, h2⟩, h3⟩
    exact hr _ _ _ (uniqueKeys_array.1 hu x (List.mem_of_getElem? hx)) (hP (.array xs) (Step.idx i) x hp hx) ((forall2_index h1).2 i x y hx hy)
  · intro owned v d hu hp h
    cases v <;> first | (cases h; done) | skip
    rename_i m
    obtain ⟨hn, hue⟩ := uniqueKeys_map.1 hu
    simp only [Reader.map, bind_eq_ok, deMapLoop_ok] at h ⊢
    obtain ⟨ds, ⟨ys, h1, h2⟩, h3⟩ := h
    refine ⟨ds, ⟨ys, forall2_of_index (forall2_index h1).1 fun i e y he hy => ?_, h2⟩, h3⟩
    obtain ⟨g1, g2⟩ := (forall2_index h1).2 i e y he hy
    have hm := List.mem_of_getElem? he
    exact ⟨g1, hr _ _ _ (hue e hm) (hP (.map m) (Step.key e.1) e.2 hp ((child_mem hn).2 hm)) g2⟩
  · intro fs hf hfs owned v d hu hp h
    simp only [Reader.struct, bind_eq_ok] at h
    obtain ⟨ds, h1, h2⟩ := h
    cases h2
    cases v <;> first | (cases h1; done) | (exact absurd rfl (hp.2 _)) | skip
    rename_i m
    obtain ⟨hn, hue⟩ := uniqueKeys_map.1 hu
    rw [bufFields_map, fields_iff hf hn] at h1
    show deStruct (fs.map RField.directDec) (.map m) = _
    rw [deStruct_ok _ (by rw [List.map_map]; exact hf) _ hn]
    refine ⟨ds, rfl, ?_⟩
    rw [List.forall₂_map_left_iff]
    refine forall2_of_index (forall2_index h1).1 fun i f nd hfi hnd => ?_
    obtain ⟨e1, e2, e3⟩ := (forall2_index h1).2 i f nd hfi hnd
    refine ⟨e1, ?_⟩
    show (match hmGet m f.name with | some v => f.reader.direct v | none => f.missing) = _
    rw [child_key_map] at e2 e3
    cases hg : hmGet m f.name with
    | none => exact e3 hg
    | some x =>
      have hmem := hmGet_mem hg
      exact hfs f (List.mem_of_getElem? hfi) _ _ _ (hue _ hmem) (hP (.map m) (Step.key f.name) x hp.1 (by rw [child_key_map]; exact hg)) (e2 x hg)

/-- **C91**, where they differ: an integer beyond 2^53 as an `f32` is rounded twice directly and once from the buffer, with different results; a list is
never a struct directly, but its elements are the fields from the buffer; an empty map is `()` from an owned buffer only. -/
theorem C91_differences :
    (∃ n d d', Reader.f32.direct (.integer n) = .ok d ∧ Reader.f32.buffered true (.integer n) = .ok d' ∧ d ≠ d') ∧
    (∀ fs xs d, (Reader.struct fs).direct (.array xs) ≠ .ok d) ∧
    (∀ owned (fs : List RField) xs ds, EachReads owned (fs.map RField.reader) xs ds →
      (Reader.struct fs).buffered owned (.array xs) = .ok (.struct ((fs.map RField.name).zip ds))) ∧
    (∀ d, Reader.unit.direct (.map []) ≠ .ok d) ∧ Reader.unit.buffered true (.map []) = .ok .unit ∧ ∀ d, Reader.unit.buffered false (.map []) ≠ .ok d := by
  refine ⟨⟨⟨2 ^ 60 + 2 ^ 36 + 1, by decide⟩, _, _, rfl, rfl, ?_⟩, ?_, ?_, ?_, rfl, ?_⟩
  · intro h
    simp only [Data.f32.injEq] at h
    have := congrArg Subtype.val h
    revert this
    decide
  · intro fs xs d h; cases h
  · intro owned fs xs ds h
    have := (eachReads_iff (owned := owned) (rs := fs.map RField.reader) (xs := xs) (ds := ds)).2 h
    simp only [Reader.struct, bufFields]
    rw [List.map_map] at this
    rw [show (fs.map fun f => f.reader.buffered owned) = fs.map ((fun r : Reader => r.buffered owned) ∘ RField.reader) from rfl, this]
    rfl
  · intro d h; cases h
  · intro d h; cases h

/-- **C91**, a configured text under a flattened number: where the last layer with the key holds a text (as the environment's always do), a flattened
struct's boolean or number of that name cannot be read, though the same field of a struct that is not flattened would convert the text. -/
theorem C91_env (b : Build) (fm : Formats) (calls : List RegCall) (w : World) (skip : Bool) (v : Value)
    (h : (register b fm calls).buildValue w skip = .ok v) (hp : ∀ e ∈ firsts (offers b fm calls), Proper e.2)
    (fs : List RField) (hf : (fs.map RField.name).Nodup) (n : String) (gs : List RField) (parts : List (String × Part))
    (hgs : ∀ n' gs', (n', Part.struct gs') ∈ (n, Part.struct gs) :: parts → (gs'.map RField.name).Nodup)
    (g : RField) (hg : g ∈ gs) (hk : g.name ∉ fs.map RField.name)
    (hr : g.reader = Reader.bool ∨ (∃ t, g.reader = Reader.int t) ∨ g.reader = Reader.f64 ∨ g.reader = Reader.f32)
    (pre : List Value) (s : String) (hs : entriesAt w (firsts (offers b fm calls)) g.name = pre ++ [.string s]) (d : Data) :
    (Reader.flatten fs ((n, .struct gs) :: parts)).direct v ≠ .ok d := by
  obtain ⟨hvm, hvu⟩ := C08_map b fm calls w skip v h
  have hc : child v (.key g.name) = some (.string s) := (C75_section b fm calls w skip v h hp g.name).2.1 pre _ hs rfl
  intro hd
  obtain ⟨ds, ps, -, -, -, hparts⟩ := (C91_flatten fs hf _ hgs v (hvu hp) hvm d).1 hd
  cases hparts with
  | struct _ _ _ ds' _ ps' h1 h2 =>
    obtain ⟨nd, -, -, g1, -⟩ := forall2_left h1 g hg
    have hc' : child (.map (without v (fs.map RField.name))) (.key g.name) = some (.string s) := by
      cases v with
      | map m =>
        rw [child_key_map, without_map, hmGet_filter_keys (m := m) (fun k => !(fs.map RField.name).contains k) g.name, ← child_key_map, hc]
        simp only [List.contains_eq_mem]
        rw [if_pos (by simp only [Bool.not_eq_true', decide_eq_false_iff_not]; exact hk)]
      | _ => cases hvm
    have := g1 _ hc'
    obtain ⟨t1, t2, t3, t4, -⟩ := C91_text true s
    rcases hr with hr | ⟨t, hr⟩ | hr | hr <;> rw [hr] at this
    · exact t1 _ this
    · exact t2 _ _ this
    · exact t3 _ this
    · exact t4 _ this

/-! ## Nothing panics in the buffer -/

theorem calm_vecLoop {dec : Decoder} (h : ∀ v, dec v ≠ .panic) (xs : List Value) : ∀ acc, deVecLoop dec acc xs ≠ .panic := by
  induction xs with
  | nil => intro acc h; cases h
  | cons x r ih =>
    intro acc hp
    rw [deVecLoop, bind_eq_panic] at hp
    rcases hp with hp | ⟨d, -, hp⟩
    · exact h x hp
    · exact ih _ hp

theorem calm_mapLoop {dec : Decoder} (h : ∀ v, dec v ≠ .panic) (m : Entries) : ∀ acc, deMapLoop .string dec acc m ≠ .panic := by
  induction m with
  | nil => intro acc h; cases h
  | cons e r ih =>
    intro acc hp
    obtain ⟨k, x⟩ := e
    rw [deMapLoop, bind_eq_panic] at hp
    rcases hp with hp | ⟨key, -, hp⟩
    · cases hp
    · rw [bind_eq_panic] at hp
      rcases hp with hp | ⟨d, -, hp⟩
      · exact h x hp
      · exact ih _ hp

/-- **C91**, enums: reading an enum (without serde attributes) from a value panics, whatever the value; from a buffer it does not, nor does any other type made of types that do not,
and a variant without content is read from its name, one with content from a map of its name to its content. -/
theorem C91_enum :
    (∀ vs v, (Reader.enum vs).direct v = .panic) ∧
    (∀ vs, (∀ va ∈ vs, ShapeFine va.shape) → Calm (Reader.enum vs) ∧ Calm (Reader.untagged vs)) ∧
    (Calm Reader.bool ∧ (∀ t, Calm (Reader.int t)) ∧ Calm Reader.f64 ∧ Calm Reader.f32 ∧ Calm Reader.char ∧ Calm Reader.string ∧ Calm Reader.unit) ∧
    (∀ r, Calm r → Calm (Reader.option r) ∧ Calm (Reader.newtype r) ∧ Calm (Reader.vec r) ∧ Calm (Reader.map r)) ∧
    (∀ fs : List RField, (∀ f ∈ fs, Calm f.reader ∧ f.missing ≠ .panic) → Calm (Reader.struct fs)) ∧
    (∀ vs owned va, vs.find? (fun a => a.name == va.name) = some va → va.shape = .unit →
      (Reader.enum vs).buffered owned (.string va.name) = .ok (.unitVariant va.name)) ∧
    (∀ vs owned va r x d, vs.find? (fun a => a.name == va.name) = some va → va.shape = .newtype r → r.buffered owned x = .ok d →
      (Reader.enum vs).buffered owned (.map [(va.name, x)]) = .ok (.newtypeVariant va.name d)) := by
  have calmUnit : Calm Reader.unit := by
    intro owned v h
    simp only [Reader.unit] at h
    split at h
    · cases h
    · cases owned <;> cases h
    · cases h
  refine ⟨fun _ _ => rfl, ?_, ⟨?_, ?_, ?_, ?_, ?_, ?_, calmUnit⟩, ?_, ?_, ?_, ?_⟩
  · intro vs hs
    refine ⟨?_, fun owned v => tryVariants_noPanic hs v⟩
    have found : ∀ {n va}, findVariant vs n = .ok va → va ∈ vs := by
      intro n va h
      rw [findVariant_ok] at h
      exact List.mem_of_find?_eq_some h
    intro owned v h
    simp only [Reader.enum] at h
    split at h
    · rw [bind_eq_panic] at h
      rcases h with h | ⟨va, h1, h⟩
      · unfold findVariant at h
        split at h <;> cases h
      · split at h <;> cases h
    · rename_i k x
      rw [bind_eq_panic] at h
      rcases h with h | ⟨va, h1, h⟩
      · unfold findVariant at h
        split at h <;> cases h
      · have hf := hs va (found h1)
        cases hsh : va.shape with
        | unit =>
          rw [hsh] at h
          simp only [bind_eq_panic] at h
          rcases h with h | ⟨d, -, h⟩
          · exact calmUnit _ _ h
          · cases h
        | newtype r =>
          rw [hsh] at h hf
          simp only [bind_eq_panic] at h
          rcases h with h | ⟨d, -, h⟩
          · exact hf _ _ h
          · cases h
        | tuple rs =>
          rw [hsh] at h hf
          cases x <;> first | (cases h; done) | skip
          simp only [bind_eq_panic] at h
          rcases h with h | ⟨d, -, h⟩
          · exact bufTuple_noPanic hf _ h
          · cases h
        | struct fs =>
          rw [hsh] at h hf
          simp only [bind_eq_panic] at h
          rcases h with h | ⟨d, -, h⟩
          · exact bufFields_noPanic hf.2 _ h
          · cases h
    · cases h
  · intro owned v h; cases v <;> cases h
  · intro t owned v h
    cases t <;> first | (cases h; done) | skip
    all_goals
      cases v <;> first | (cases h; done) | skip
      all_goals
        simp only [Reader.int] at h
        split at h <;> cases h
  · intro owned v h; cases v <;> cases h
  · intro owned v h; cases v <;> cases h
  · intro owned v h
    cases v <;> first | (cases h; done) | skip
    simp only [Reader.char] at h
    split at h <;> cases h
  · intro owned v h; cases v <;> cases h
  · intro r hr
    refine ⟨?_, ?_, ?_, ?_⟩
    · intro owned v h
      simp only [Reader.option] at h
      split at h
      · cases h
      · rw [bind_eq_panic] at h
        rcases h with h | ⟨d, -, h⟩
        · exact hr _ _ h
        · cases h
    · intro owned v h
      simp only [Reader.newtype, bind_eq_panic] at h
      rcases h with h | ⟨d, -, h⟩
      · exact hr _ _ h
      · cases h
    · intro owned v h
      cases v <;> first | (cases h; done) | skip
      simp only [Reader.vec, bind_eq_panic] at h
      rcases h with h | ⟨d, -, h⟩
      · exact calm_vecLoop (hr owned) _ _ h
      · cases h
    · intro owned v h
      cases v <;> first | (cases h; done) | skip
      simp only [Reader.map, bind_eq_panic] at h
      rcases h with h | ⟨d, -, h⟩
      · exact calm_mapLoop (hr owned) _ _ h
      · cases h
  · intro fs hf owned v h
    simp only [Reader.struct, bind_eq_panic] at h
    rcases h with h | ⟨d, -, h⟩
    · exact bufFields_noPanic hf _ h
    · cases h
  · intro vs owned va hf hs
    simp only [Reader.enum, findVariant, hf, Outcome.bind_ok, hs]
  · intro vs owned va r x d hf hs hr
    simp only [Reader.enum, findVariant, hf, Outcome.bind_ok, hs, hr]

/-! ### Examples -/

/-- `struct Net { port: u16, debug: Option<bool> }`. -/
def exNet : List RField := [⟨"port", Reader.int .u16, .err (.deserializationError "missing field `port`")⟩, ⟨"debug", Reader.option Reader.bool, .ok .none⟩]
/-- `struct App { name: String, #[serde(flatten)] net: Net, #[serde(flatten)] other: HashMap<String, String> }`. -/
def exApp : Reader := Reader.flatten [⟨"name", Reader.string, .err (.deserializationError "missing field `name`")⟩] [("net", .struct exNet), ("other", .rest Reader.string)]

/-- The hypotheses of `C91_flatten` and `C91_env` hold of it. -/
example : (exNet.map RField.name).Nodup ∧ "port" ∉ ["name"] := by decide
example : exApp.direct (.map [("port", .integer ⟨80, by decide⟩), ("lang", .string "en"), ("name", .integer ⟨7, by decide⟩)]) =
    .ok (.struct [("name", .str "7"), ("net", .struct [("port", .int .u16 ⟨80, by decide⟩), ("debug", .none)]), ("other", .map [(.str "lang", .str "en")])]) := rfl
/-- The port as a text, as an environment variable gives it: `Net` itself reads it, `App` does not. -/
example : (Reader.struct exNet).direct (.map [("port", .string "80")]) = .ok (.struct [("port", .int .u16 ⟨80, by decide⟩), ("debug", .none)]) := rfl
example (d : Data) : exApp.direct (.map [("name", .string "a"), ("port", .string "80")]) ≠ .ok d := by intro h; cases h
/-- A 128-bit integer under a key nobody asks for. -/
example (d : Data) : exApp.direct (.map [("name", .string "a"), ("port", .integer ⟨80, by decide⟩), ("zzz", .longInteger ⟨1, by decide⟩)]) ≠ .ok d := by
  intro h; cases h

/-- `enum Mode { Fast, Slow(u8) }`, `#[serde(untagged)] enum Either { Mode(Mode), Net(Net), Many(u8, u8) }`. -/
def exMode : List Variant := [⟨"Fast", .unit⟩, ⟨"Slow", .newtype (Reader.int .u8)⟩]
def exEither : List Variant := [⟨"Mode", .newtype (Reader.enum exMode)⟩, ⟨"Net", .struct exNet⟩, ⟨"Many", .tuple [Reader.int .u8, Reader.int .u8]⟩]

/-- The hypotheses of `C91_untagged` and `C91_tagged`. -/
theorem exEither_fine : ∀ va ∈ exEither, ShapeFine va.shape := by
  obtain ⟨-, h1, ⟨hb, hi, -⟩, h3, -⟩ := C91_enum
  have hm : ∀ va ∈ exMode, ShapeFine va.shape := by
    intro va h
    simp only [exMode, List.mem_cons, List.not_mem_nil, or_false] at h
    rcases h with rfl | rfl
    · exact trivial
    · exact hi _
  intro va h
  simp only [exEither, List.mem_cons, List.not_mem_nil, or_false] at h
  rcases h with rfl | rfl | rfl
  · exact (h1 exMode hm).1
  · refine ⟨by decide, ?_⟩
    intro f hf
    simp only [exNet, List.mem_cons, List.not_mem_nil, or_false] at hf
    rcases hf with rfl | rfl
    · exact ⟨hi _, by intro h; cases h⟩
    · exact ⟨(h3 _ hb).1, by intro h; cases h⟩
  · intro r hr
    simp only [List.mem_cons, List.not_mem_nil, or_false, or_self] at hr
    subst hr
    exact hi _

example : (Reader.untagged exEither).direct (.string "Fast") = .ok (.newtypeVariant "Mode" (.unitVariant "Fast")) := rfl
example : (Reader.untagged exEither).direct (.map [("Slow", .integer ⟨3, by decide⟩)]) = .ok (.newtypeVariant "Mode" (.newtypeVariant "Slow" (.int .u8 ⟨3, by decide⟩))) := rfl
example : (Reader.untagged exEither).direct (.map [("port", .integer ⟨3, by decide⟩)]) =
    .ok (.structVariant "Net" [("port", .int .u16 ⟨3, by decide⟩), ("debug", .none)]) := rfl
/-- A struct that has just the fields of `Net` in order would win over the tuple: the list is read as `Net`. -/
example : (Reader.untagged exEither).direct (.array [.integer ⟨3, by decide⟩, .none]) =
    .ok (.structVariant "Net" [("port", .int .u16 ⟨3, by decide⟩), ("debug", .none)]) := rfl
example : (Reader.untagged exEither).direct (.array [.integer ⟨3, by decide⟩, .integer ⟨4, by decide⟩]) =
    .ok (.tupleVariant "Many" [.int .u8 ⟨3, by decide⟩, .int .u8 ⟨4, by decide⟩]) := rfl
example : (Reader.tagged "kind" exEither).direct (.map [("port", .integer ⟨3, by decide⟩), ("kind", .string "Net")]) =
    .ok (.structVariant "Net" [("port", .int .u16 ⟨3, by decide⟩), ("debug", .none)]) := rfl
example (d : Data) : (Reader.tagged "kind" exEither).direct (.map [("port", .string "3"), ("kind", .string "Net")]) ≠ .ok d := by intro h; cases h
/-- The hypotheses of `C91_containers`. -/
example : Hereditary (fun _ => True) ∧ Agrees (fun _ => True) (Reader.vec (Reader.option Reader.bool)) :=
  ⟨fun _ _ _ _ _ => trivial,
   (C91_containers (fun _ => True) (fun _ _ _ _ _ => trivial) _ (C91_containers (fun _ => True) (fun _ _ _ _ _ => trivial) _ (C91_scalars _).1).1).2.2.1⟩

/-! ### The theorems on these types -/

theorem exNetMap_unique : UniqueKeys (.map [("port", .integer ⟨3, by decide⟩), ("kind", .string "Net")]) := by
  simp [UniqueKeys, UniqueKeysMap, UniqueKeysEntry]

/-- The map is buffered as it is. -/
example : buffer (.map [("port", .integer ⟨3, by decide⟩), ("kind", .string "Net")]) = .ok (.map [("port", .integer ⟨3, by decide⟩), ("kind", .string "Net")]) :=
  (C91_buffer _ exNetMap_unique).1 (by
    rw [← no128_iff, no128_map (by decide)]
    intro e he
    simp only [List.mem_cons, List.not_mem_nil, or_false] at he
    rcases he with rfl | rfl
    all_goals
      intro p
      rcases p with _ | ⟨_ | _, p⟩ <;> exact ⟨fun n h => (by cases h), fun n h => (by cases h)⟩)
/-- With a 128-bit integer in a list inside it cannot be buffered. -/
example : ∃ e, buffer (.map [("a", .array [.none, .longInteger ⟨3, by decide⟩])]) = .err e :=
  (C91_buffer _ (by simp [UniqueKeys, UniqueKeysMap, UniqueKeysEntry, UniqueKeysList])).2 ⟨[.key "a", .idx 1], Or.inl ⟨_, rfl⟩⟩
/-- The second variant of the untagged enum fits, and the first does not. -/
example : Fits (exEither[1]) (.map [("port", .integer ⟨3, by decide⟩), ("kind", .string "Net")]) (.structVariant "Net" [("port", .int .u16 ⟨3, by decide⟩), ("debug", .none)]) := by
  obtain ⟨-, pre, va, post, h1, h2, h3⟩ := ((C91_untagged exEither exEither_fine _ exNetMap_unique).1
    (.structVariant "Net" [("port", .int .u16 ⟨3, by decide⟩), ("debug", .none)])).1 rfl
  have hn : va.name = "Net" := by
    generalize hd : Data.structVariant "Net" [("port", .int .u16 ⟨3, by decide⟩), ("debug", .none)] = d at h2
    cases h2 <;> first | (injection hd with hd1 hd2; exact hd1.symm) | (exact absurd hd (by simp))
  have hm : va ∈ exEither := by rw [h1]; simp
  simp only [exEither, List.mem_cons, List.not_mem_nil, or_false] at hm
  rcases hm with rfl | rfl | rfl
  · exact absurd hn (by decide)
  · exact h2
  · exact absurd hn (by decide)
/-- The tag chooses the variant, which is read from the rest. -/
example : ∃ va, exEither.find? (fun a => a.name == "Net") = some va ∧ RestReads va (.map [("port", .integer ⟨3, by decide⟩)])
    (.structVariant "Net" [("port", .int .u16 ⟨3, by decide⟩), ("debug", .none)]) := by
  obtain ⟨x, name, va, h1, h2, h3, -, h4⟩ := (C91_tagged "kind" exEither exEither_fine _ exNetMap_unique rfl
    (.structVariant "Net" [("port", .int .u16 ⟨3, by decide⟩), ("debug", .none)])).1 rfl
  cases h1
  cases h2
  exact ⟨va, h3, h4⟩
/-- A flattened struct, and what it gets. -/
example : ∃ ps, PartsGet (.map [("port", .integer ⟨80, by decide⟩), ("lang", .string "en"), ("name", .integer ⟨7, by decide⟩)]) ["name"]
    [("net", .struct exNet), ("other", .rest Reader.string)] ps := by
  obtain ⟨ds, ps, -, -, -, h⟩ := (C91_flatten [⟨"name", Reader.string, .err (.deserializationError "missing field `name`")⟩] (by decide)
    [("net", .struct exNet), ("other", .rest Reader.string)] (by
      intro n gs h
      simp only [List.mem_cons, Prod.mk.injEq, List.not_mem_nil, or_false, reduceCtorEq, and_false] at h
      have : gs = exNet := by simpa using h.2
      subst this; decide)
    (.map [("port", .integer ⟨80, by decide⟩), ("lang", .string "en"), ("name", .integer ⟨7, by decide⟩)])
    (by simp [UniqueKeys, UniqueKeysMap, UniqueKeysEntry]) rfl
    (.struct [("name", .str "7"), ("net", .struct [("port", .int .u16 ⟨80, by decide⟩), ("debug", .none)]), ("other", .map [(.str "lang", .str "en")])])).1 rfl
  exact ⟨ps, h⟩
/-- `flag=on` in the environment: a text, which no buffered `bool` takes. -/
example (d : Data) : Reader.bool.buffered true (.string "true") ≠ .ok d := (C91_text true "true").1 d
/-- A list of two is read as a struct of two fields. -/
example : (Reader.struct exNet).buffered true (.array [.integer ⟨3, by decide⟩, .none]) = .ok (.struct [("port", .int .u16 ⟨3, by decide⟩), ("debug", .none)]) :=
  C91_differences.2.2.1 true exNet [.integer ⟨3, by decide⟩, .none] [.int .u16 ⟨3, by decide⟩, .none] ⟨rfl, rfl, by
    intro j r x d h1 h2 h3
    rcases j with _ | _ | j
    · cases h1; cases h2; cases h3; rfl
    · cases h1; cases h2; cases h3; rfl
    · cases h1⟩

/-- A layer that has the port, and a later one that has it as a text. -/
def exTextCalls : List RegCall :=
  [.memory "low" (.map [("name", .string "n"), ("port", .integer ⟨1, by decide⟩)]), .memory "high" (.map [("port", .string "80")])]
example (d : Data) : exApp.direct (.map [("name", .string "n"), ("port", .string "80")]) ≠ .ok d := by
  refine C91_env exB1 exFormats exTextCalls exDisk false _ rfl ?_ [⟨"name", Reader.string, .err (.deserializationError "missing field `name`")⟩] (by decide)
    "net" exNet [("other", .rest Reader.string)] ?_ _ (List.mem_cons_self) (by decide) (Or.inr (Or.inl ⟨_, rfl⟩)) [.integer ⟨1, by decide⟩] "80" rfl d
  · intro e he
    obtain ⟨c, hc, ho⟩ := List.mem_filterMap.1 (mem_firsts he)
    simp only [exTextCalls, List.mem_cons, List.not_mem_nil, or_false] at hc
    apply C08_builtin_proper exB1 exFormats c e _ _ ho
    · rcases hc with rfl | rfl <;> trivial
    · rcases hc with rfl | rfl <;> intro n v hv <;> cases hv <;> simp [UniqueKeys, UniqueKeysMap, UniqueKeysEntry]
  · intro n gs h
    have : gs = exNet := by
      have := h
      simp at this
      exact this.2
    subst this; decide

end Verif.Props
