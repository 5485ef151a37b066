import Verif.Lemmas.SerdeTyped
/-! Panic freedom of deserialization, and its independence of map iteration order. -/
namespace Verif
open Spec Props

/-! ## Depth -/

theorem depth_child {v x : Value} {s : Step} {k : Nat} (h : DepthBelow v (k + 1)) (hc : child v s = some x) :
    DepthBelow x k := by
  intro p hp
  have := h (s :: p) (by rw [view, hc]; exact hp)
  simpa using this

theorem depth_mono {v : Value} {k k' : Nat} (h : DepthBelow v k) (hk : k ≤ k') : DepthBelow v k' :=
  fun p hp => lt_of_lt_of_le (h p hp) hk

theorem depth_child' {v x : Value} {s : Step} {k : Nat} (h : DepthBelow v k) (hc : child v s = some x) :
    DepthBelow x k := by
  cases k with
  | zero => exact absurd (h [] (by simp [view])) (by simp)
  | succ k => exact depth_mono (depth_child h hc) (Nat.le_succ k)

theorem child_of_mem_array {xs : List Value} {x : Value} (h : x ∈ xs) : ∃ i, child (.array xs) (.idx i) = some x := by
  obtain ⟨i, hi⟩ := List.mem_iff_getElem?.1 h
  exact ⟨i, hi⟩

theorem child_of_mem_map {m : Entries} (hn : (m.map Prod.fst).Nodup) {e : String × Value} (h : e ∈ m) :
    child (.map m) (.key e.1) = some e.2 := by
  rw [child_key_map]; exact hmGet_of_mem hn h

theorem de_noPanic {refs : Nat → Decoder} {k : Nat}
    (hr : ∀ n x, UniqueKeys x → DepthBelow x k → refs n x ≠ .panic) {t : Ty} (ht : NoEnumNoBytes t) :
    ∀ v, UniqueKeys v → DepthBelow v k → de refs t v ≠ .panic := by
  have sc : ∀ {α : Type} {x : Except ModelError α} {f : α → Data},
      (Outcome.ofExcept x >>= fun a => Outcome.ok (f a)) ≠ .panic := by
    intro α x f h
    rw [bind_eq_panic] at h
    rcases h with h | ⟨_, _, h⟩
    · exact ofExcept_panic h
    · cases h
  induction ht with
  | bool => intro v _ _; rw [de]; exact sc
  | int t =>
    intro v _ _ h
    rw [de, bind_eq_panic] at h
    rcases h with h | ⟨_, _, h⟩
    · exact deInt_noPanic _ _ h
    · cases h
  | f32 => intro v _ _; rw [de]; exact sc
  | f64 => intro v _ _; rw [de]; exact sc
  | char => intro v _ _; rw [de]; exact sc
  | string => intro v _ _; rw [de]; exact sc
  | unit => intro v _ _; cases v <;> simp [de]
  | unitStruct => intro v _ _; cases v <;> simp [de]
  | value =>
    intro v _ _
    obtain ⟨w, hw⟩ := deValue_noPanic v
    rw [de, hw]; simp
  | option _ ih =>
    intro v hu hd h
    have := ih v hu hd
    cases v <;> simp only [de, bind_eq_panic, reduceCtorEq, and_false, exists_false, or_false] at h <;> exact this h
  | newtype _ ih =>
    intro v hu hd h
    have := ih v hu hd
    simp only [de, bind_eq_panic, reduceCtorEq, and_false, exists_false, or_false] at h
    exact this h
  | seq _ ih =>
    intro v hu hd h
    cases v <;> simp only [de, bind_eq_panic, reduceCtorEq, and_false, exists_false, or_false] at h
    rename_i xs
    refine deVecLoop_noPanic _ xs (fun x hx => ?_) [] h
    obtain ⟨i, hi⟩ := child_of_mem_array hx
    exact ih x (uniqueKeys_array.1 hu x hx) (depth_child' hd hi)
  | tuple _ ih =>
    intro v hu hd h
    cases v <;> simp only [de, bind_eq_panic, reduceCtorEq, and_false, exists_false, or_false] at h
    rename_i xs
    refine deTupleLoop_noPanic _ xs 0 [] (fun dec hdec x hx => ?_) h
    obtain ⟨t, ht, rfl⟩ := decoders_mem refs hdec
    obtain ⟨i, hi⟩ := child_of_mem_array hx
    exact ih t ht x (uniqueKeys_array.1 hu x hx) (depth_child' hd hi)
  | tupleStruct _ ih =>
    intro v hu hd h
    cases v <;> simp only [de, bind_eq_panic, reduceCtorEq, and_false, exists_false, or_false] at h
    rename_i xs
    refine deTupleLoop_noPanic _ xs 0 [] (fun dec hdec x hx => ?_) h
    obtain ⟨t, ht, rfl⟩ := decoders_mem refs hdec
    obtain ⟨i, hi⟩ := child_of_mem_array hx
    exact ih t ht x (uniqueKeys_array.1 hu x hx) (depth_child' hd hi)
  | map _ ih =>
    intro v hu hd h
    cases v <;> simp only [de, bind_eq_panic, reduceCtorEq, and_false, exists_false, or_false] at h
    rename_i m
    have hu' := uniqueKeys_map.1 hu
    exact deMapLoop_noPanic _ _ m (fun e he =>
      ih e.2 (hu'.2 e he) (depth_child' hd (child_of_mem_map hu'.1 he))) [] h
  | struct _ ih =>
    intro v hu hd
    refine de_struct_noPanic refs _ v ?_
    rintro m rfl e he f hf
    have hu' := uniqueKeys_map.1 hu
    exact ih f hf e.2 (hu'.2 e he) (depth_child' hd (child_of_mem_map hu'.1 he))
  | ref n => intro v hu hd; rw [de]; exact hr n v hu hd

theorem refsAt_noPanic {structs : Nat → List (String × Ty)} (hs : ∀ n, NoEnumNoBytes (.struct (structs n))) :
    ∀ k n v, UniqueKeys v → DepthBelow v k → refsAt structs k n v ≠ .panic := by
  intro k
  induction k with
  | zero => intro n v _ hd; exact absurd (hd [] (by simp [view])) (by simp)
  | succ k ih =>
    intro n v hu hd
    rw [refsAt]
    have hn := hs n
    cases hn with
    | struct hf =>
      refine de_struct_noPanic _ _ v ?_
      rintro m rfl e he f hf'
      have hu' := uniqueKeys_map.1 hu
      exact de_noPanic ih (hf f hf') e.2 (hu'.2 e he) (depth_child hd (child_of_mem_map hu'.1 he))

/-! ## Order -/

theorem same_child {v v' x : Value} {s : Step} (h : Same v v') (hc : child v s = some x) :
    ∃ x', child v' s = some x' ∧ Same x x' := by
  have h0 := h [s]
  simp only [view, hc, Option.bind_some] at h0
  cases hc' : child v' s with
  | none => rw [hc'] at h0; cases h0
  | some x' =>
    refine ⟨x', rfl, fun p => ?_⟩
    have := h (s :: p)
    simpa only [view, hc, hc', Option.bind_some] using this

theorem Same.symm' {v v' : Value} (h : Same v v') : Same v' v := fun p => (h p).symm

theorem clash_same {structs : Nat → List (String × Ty)} {t : Ty} {v : Value} (h : KeyClash structs t v) :
    ∀ v', Same v v' → KeyClash structs t v' := by
  induction h with
  | here h1 h2 h3 h4 =>
    intro v' hs
    obtain ⟨x, hx⟩ := Option.ne_none_iff_exists'.1 h3
    obtain ⟨y, hy⟩ := Option.ne_none_iff_exists'.1 h4
    obtain ⟨x', hx', _⟩ := same_child hs hx
    obtain ⟨y', hy', _⟩ := same_child hs hy
    exact .here h1 h2 (by rw [hx']; simp) (by rw [hy']; simp)
  | entry h1 _ ih => intro v' hs; obtain ⟨x', hx', h⟩ := same_child hs h1; exact .entry hx' (ih x' h)
  | option _ ih => intro v' hs; exact .option (ih v' hs)
  | newtype _ ih => intro v' hs; exact .newtype (ih v' hs)
  | seq h1 _ ih => intro v' hs; obtain ⟨x', hx', h⟩ := same_child hs h1; exact .seq hx' (ih x' h)
  | tuple h0 h1 _ ih => intro v' hs; obtain ⟨x', hx', h⟩ := same_child hs h1; exact .tuple h0 hx' (ih x' h)
  | tupleStruct h0 h1 _ ih => intro v' hs; obtain ⟨x', hx', h⟩ := same_child hs h1; exact .tupleStruct h0 hx' (ih x' h)
  | struct h0 h1 _ ih => intro v' hs; obtain ⟨x', hx', h⟩ := same_child hs h1; exact .struct h0 hx' (ih x' h)
  | ref _ ih => intro v' hs; exact .ref (ih v' hs)

theorem deKey_sameKey {kt : KeyTy} {a b : String} {k : Key} (ha : deKey kt a = .ok k) (hb : deKey kt b = .ok k) :
    SameKey kt a b := by
  cases kt with
  | bool =>
    simp only [deKey, bind_eq_ok, ofExcept_ok, Outcome.ok.injEq] at ha hb
    obtain ⟨x, h1, rfl⟩ := ha
    obtain ⟨y, h2, h3⟩ := hb
    cases h3
    have key : ∀ s x, (Value.string s).tryInto .bool = .ok x →
        EqIgnoreAsciiCase s (if x = true then "true" else "false") := by
      intro s x h
      obtain ⟨e1, e2, e3⟩ := C29_string_to_bool s
      by_cases h1 : EqIgnoreAsciiCase s "true"
      · rw [e1 h1] at h; cases h; exact h1
      · by_cases h2 : EqIgnoreAsciiCase s "false"
        · rw [e2 h2] at h; cases h; exact h2
        · rw [e3 h1 h2] at h; cases h
    have k1 := key a x h1
    have k2 := key b x h2
    cases x
    · exact Or.inr ⟨k1, k2⟩
    · exact Or.inl ⟨k1, k2⟩
  | int t =>
    simp only [deKey, bind_eq_ok, Outcome.ok.injEq] at ha hb
    obtain ⟨x, h1, rfl⟩ := ha
    obtain ⟨y, h2, h3⟩ := hb
    cases h3
    have hu : Upto64 t := by
      constructor <;> rintro rfl <;> cases h1
    rw [deInt_eq hu, ofExcept_ok] at h1 h2
    exact ⟨x.1, ((C25_string_to_int t a x.1).2.1 x h1).1, ((C25_string_to_int t b x.1).2.1 x h2).1⟩
  | char =>
    simp only [deKey, bind_eq_ok, ofExcept_ok, Outcome.ok.injEq] at ha hb
    obtain ⟨x, h1, rfl⟩ := ha
    obtain ⟨y, h2, h3⟩ := hb
    cases h3
    have key : ∀ s x, (Value.string s).tryInto .char = .ok x → s.toList.head? = some x := by
      intro s x h
      simp only [Value.tryInto, Value.tryIntoChar] at h
      cases hl : s.toList with
      | nil => rw [hl] at h; cases h
      | cons c r => rw [hl] at h; cases h; rfl
    exact ⟨x, key a x h1, key b x h2⟩
  | string =>
    have h1 : Outcome.ok (Key.str a) = Outcome.ok k := ha
    have h2 : Outcome.ok (Key.str b) = Outcome.ok k := hb
    rw [← h1] at h2
    cases h2; rfl

/-- One direction of order independence. -/
def OrderFree (refs : Nat → Decoder) (structs : Nat → List (String × Ty)) (t : Ty) : Prop :=
  ∀ v v' d, Same v v' → UniqueKeys v → UniqueKeys v' → ¬ KeyClash structs t v → de refs t v = .ok d →
    ∃ d', de refs t v' = .ok d' ∧ DSame d d'

theorem order_tuple {refs : Nat → Decoder} {structs : Nat → List (String × Ty)} {ts : List Ty}
    (ih : ∀ t ∈ ts, OrderFree refs structs t) {xs ws : List Value} {ds : List Data}
    (hs : Same (.array xs) (.array ws)) (hu : UniqueKeys (.array xs)) (hu' : UniqueKeys (.array ws))
    (hc : ∀ (i : Nat) t x, ts[i]? = some t → xs[i]? = some x → ¬ KeyClash structs t x)
    (h1 : ts.length ≤ xs.length) (h2 : ds.length = ts.length)
    (h3 : ∀ (i : Nat) t x y, ts[i]? = some t → xs[i]? = some x → ds[i]? = some y → de refs t x = .ok y) :
    ∃ ds', ts.length ≤ ws.length ∧ ds'.length = ts.length ∧
      (∀ (i : Nat) t x y, ts[i]? = some t → ws[i]? = some x → ds'[i]? = some y → de refs t x = .ok y) ∧
      List.Forall₂ DSame ds ds' := by
  rw [same_array] at hs
  rw [uniqueKeys_array] at hu hu'
  obtain ⟨l, hs⟩ := hs
  have step : ∀ i, i < ts.length → ∃ y', ∀ t x y, ts[i]? = some t → ws[i]? = some x → ds[i]? = some y →
      de refs t x = .ok y' ∧ DSame y y' := by
    intro i hi
    obtain ⟨t, ht⟩ := get_of_lt hi
    obtain ⟨x, hx⟩ := get_of_lt (show i < xs.length by omega)
    obtain ⟨w, hw⟩ := get_of_lt (show i < ws.length by omega)
    obtain ⟨y, hy⟩ := get_of_lt (show i < ds.length by omega)
    obtain ⟨y', e1, e2⟩ := ih t (List.mem_of_getElem? ht) x w y (hs i x w hx hw) (hu x (List.mem_of_getElem? hx))
      (hu' w (List.mem_of_getElem? hw)) (hc i t x ht hx) (h3 i t x y ht hx hy)
    refine ⟨y', fun t2 w2 y2 f1 f2 f3 => ?_⟩
    rw [ht] at f1; rw [hw] at f2; rw [hy] at f3
    cases f1; cases f2; cases f3
    exact ⟨e1, e2⟩
  obtain ⟨ds', hl', hd'⟩ := list_choose _ step
  refine ⟨ds', by omega, hl', fun i t x y' ht hx hy' => ?_, forall2_of_index (by omega) fun i y y' hy hy' => ?_⟩
  · obtain ⟨y, hy⟩ := get_of_lt (show i < ds.length by have := lt_of_get ht; omega)
    exact (hd' i y' hy' t x y ht hx hy).1
  · have hi := lt_of_get hy
    obtain ⟨t, ht⟩ := get_of_lt (show i < ts.length by omega)
    obtain ⟨w, hw⟩ := get_of_lt (show i < ws.length by omega)
    exact (hd' i y' hy' t w y ht hw hy).2

theorem order_struct {refs : Nat → Decoder} {structs : Nat → List (String × Ty)} {fs : List (String × Ty)}
    (hn : (fs.map Prod.fst).Nodup) (ih : ∀ f ∈ fs, OrderFree refs structs f.2) : OrderFree refs structs (.struct fs) := by
  intro v v' d hs hu hu' hc hd
  cases v with
  | map m =>
    obtain ⟨n, rfl⟩ := same_map_left hs
    rw [same_map] at hs
    have hu1 := uniqueKeys_map.1 hu
    have hu2 := uniqueKeys_map.1 hu'
    rw [de_struct_ok _ _ hn _ hu1.1] at hd
    obtain ⟨ds, rfl, hf⟩ := hd
    obtain ⟨l, h1⟩ := forall2_index hf
    have step : ∀ i, i < fs.length → ∃ nd' : String × Data, ∀ f nd, fs[i]? = some f → ds[i]? = some nd →
        nd'.1 = f.1 ∧ (match hmGet n f.1 with | some v => de refs f.2 v | none => missingField f.1 f.2) = .ok nd'.2 ∧
        nd.1 = nd'.1 ∧ DSame nd.2 nd'.2 := by
      intro i hi
      obtain ⟨f, hf⟩ := get_of_lt hi
      obtain ⟨nd, hnd⟩ := get_of_lt (show i < ds.length by omega)
      obtain ⟨e1, e2⟩ := h1 i f nd hf hnd
      have : ∃ d', (match hmGet n f.1 with | some v => de refs f.2 v | none => missingField f.1 f.2) = .ok d' ∧ DSame nd.2 d' := by
        cases hm : hmGet m f.1 with
        | none =>
          rw [hm] at e2
          rw [(hs f.1).1.1 hm]
          exact ⟨_, e2, DSame.refl _⟩
        | some x =>
          rw [hm] at e2
          have hne : hmGet n f.1 ≠ none := fun e => by rw [(hs f.1).1.2 e] at hm; cases hm
          obtain ⟨w, hw⟩ := Option.ne_none_iff_exists'.1 hne
          rw [hw]
          have hfm := List.mem_of_getElem? hf
          exact ih f hfm x w nd.2 ((hs f.1).2 x w hm hw) (uniqueKeys_get hu hm) (uniqueKeys_get hu' hw)
            (fun hcl => hc (.struct (name := f.1) (t := f.2) hfm (by rw [child_key_map]; exact hm) hcl)) e2
      obtain ⟨d', h2, h3⟩ := this
      refine ⟨(f.1, d'), fun f' nd' g1 g2 => ?_⟩
      rw [hf] at g1; rw [hnd] at g2; cases g1; cases g2
      exact ⟨rfl, h2, e1, h3⟩
    obtain ⟨ds', hl', hd'⟩ := list_choose _ step
    refine ⟨.struct ds', ?_, dsame_struct (forall2_of_index (by omega) fun i y y' hy hy' => ?_)⟩
    · rw [de_struct_ok _ _ hn _ hu2.1]
      refine ⟨ds', rfl, forall2_of_index (by omega) fun i f y hf hy => ?_⟩
      obtain ⟨nd, hnd⟩ := get_of_lt (show i < ds.length by have := lt_of_get hf; omega)
      obtain ⟨e1, e2, _⟩ := hd' i y hy f nd hf hnd
      exact ⟨e1, e2⟩
    · obtain ⟨f, hf⟩ := get_of_lt (show i < fs.length by have := lt_of_get hy; omega)
      obtain ⟨_, _, e3, e4⟩ := hd' i y' hy' f y hf hy
      exact ⟨e3, e4⟩
  | _ => simp [de, deStruct] at hd

theorem order_scalar {refs : Nat → Decoder} {structs : Nat → List (String × Ty)} {t : Ty}
    (h : ∀ v d, de refs t v = .ok d → isScalar v = true) : OrderFree refs structs t := by
  intro v v' d hs _ _ _ hd
  rw [same_scalar (h v d hd) hs]
  exact ⟨d, hd, DSame.refl d⟩

theorem tryInto_scalar {s : Scalar} {v : Value} {x : s.T} (h : v.tryInto s = .ok x) : isScalar v = true := by
  cases v with
  | array xs => rw [C31_containers_never_convert s (.array xs) _ rfl] at h; cases h
  | map xs => rw [C31_containers_never_convert s (.map xs) _ rfl] at h; cases h
  | _ => rfl

theorem order_free {refs : Nat → Decoder} {structs : Nat → List (String × Ty)}
    (hr : ∀ n, OrderFree refs structs (.ref n)) {t : Ty} (ht : WellFormed t) : OrderFree refs structs t := by
  have sc : ∀ {t : Ty} {s : Scalar} {f : s.T → Data},
      (∀ v, de refs t v = (Outcome.ofExcept (v.tryInto s) >>= fun a => Outcome.ok (f a))) → OrderFree refs structs t := by
    intro t s f h
    refine order_scalar fun v d hd => ?_
    rw [h, bind_eq_ok] at hd
    obtain ⟨a, h1, _⟩ := hd
    rw [ofExcept_ok] at h1
    exact tryInto_scalar h1
  induction ht with
  | bool => exact sc (s := .bool) (f := .bool) (fun v => by rw [de])
  | int t =>
    by_cases hu : Upto64 t
    · exact sc (s := .int t) (f := .int t) (fun v => by rw [de, deInt_eq hu])
    · refine order_scalar fun v d hd => ?_
      have : t = .i128 ∨ t = .u128 := by
        by_contra h
        rw [not_or] at h
        exact hu h
      rw [de] at hd
      rcases this with rfl | rfl <;> cases hd
  | f32 => exact sc (s := .f64) (f := fun x => .f32 (F32.ofF64 x)) (fun v => by rw [de])
  | f64 => exact sc (s := .f64) (f := .f64) (fun v => by rw [de])
  | char => exact sc (s := .char) (f := .char) (fun v => by rw [de])
  | string => exact sc (s := .string) (f := .str) (fun v => by rw [de])
  | unit => exact order_scalar fun v d hd => by cases v <;> first | rfl | (simp [de] at hd)
  | unitStruct => exact order_scalar fun v d hd => by cases v <;> first | rfl | (simp [de] at hd)
  | bytes => intro v v' d _ _ _ _ hd; rw [de] at hd; cases hd
  | enum => intro v v' d _ _ _ _ hd; rw [de] at hd; cases hd
  | value =>
    intro v v' d hs hu hu' _ hd
    rw [de, deValue_ok v hu] at hd
    cases hd
    exact ⟨v'.toData, by rw [de, deValue_ok v' hu']; rfl, dsame_toData v v' hs⟩
  | @option t _ ih =>
    intro v v' d hs hu hu' hc hd
    by_cases hv : v = .none
    · subst hv
      rw [same_scalar rfl hs]
      exact ⟨d, hd, DSame.refl d⟩
    · have hv' : v' ≠ .none := by
        rintro rfl
        exact hv (same_scalar rfl (Same.symm' hs))
      rw [de, bind_eq_ok] at hd
      · obtain ⟨x, h1, h2⟩ := hd
        cases h2
        obtain ⟨d', h3, h4⟩ := ih v v' x hs hu hu' (fun h => hc (.option h)) h1
        refine ⟨.some d', ?_, dsame_some h4⟩
        rw [de, h3]
        · rfl
        · exact fun e => absurd e hv'
      · exact fun e => absurd e hv
  | newtype _ ih =>
    intro v v' d hs hu hu' hc hd
    rw [de, bind_eq_ok] at hd
    obtain ⟨x, h1, h2⟩ := hd
    cases h2
    obtain ⟨d', h3, h4⟩ := ih v v' x hs hu hu' (fun h => hc (.newtype h)) h1
    exact ⟨.newtypeStruct d', by rw [de, h3]; rfl, dsame_newtype h4⟩
  | @seq t _ ih =>
    intro v v' d hs hu hu' hc hd
    cases v with
    | array xs =>
      obtain ⟨ws, rfl⟩ := same_array_left hs
      obtain ⟨ds, rfl, h1, h2⟩ := (de_seq_ok _ _ _ _).1 hd
      obtain ⟨ds', e1, e2, e3, e4⟩ := order_tuple (ts := List.replicate xs.length t) (ds := ds)
        (fun t' ht => by rw [List.mem_replicate] at ht; rw [ht.2]; exact ih) hs hu hu'
        (fun i t' x ht hx hcl => by
          rw [List.getElem?_replicate] at ht
          split at ht <;> cases ht
          exact hc (.seq (i := i) hx hcl))
        (by simp) (by simp [h1]) (fun i t' x y ht hx hy => by
          rw [List.getElem?_replicate] at ht
          split at ht <;> cases ht
          exact h2 i x y hx hy)
      have hl : xs.length = ws.length := (same_array.1 hs).1
      simp only [List.length_replicate] at e1 e2
      refine ⟨.seq ds', (de_seq_ok _ _ _ _).2 ⟨ds', rfl, by omega, fun i x y hx hy => e3 i t x y ?_ hx hy⟩, dsame_seq e4⟩
      rw [List.getElem?_replicate, if_pos (by have := lt_of_get hx; omega)]
    | _ => simp [de] at hd
  | tuple _ ih =>
    intro v v' d hs hu hu' hc hd
    cases v with
    | array xs =>
      obtain ⟨ws, rfl⟩ := same_array_left hs
      obtain ⟨ds, rfl, h0, h1, h2⟩ := (de_tuple_ok _ _ _ _).1 hd
      obtain ⟨ds', e1, e2, e3, e4⟩ := order_tuple ih hs hu hu'
        (fun i t' x ht hx hcl => hc (.tuple (i := i) ht hx hcl)) h0 h1 h2
      exact ⟨.tuple ds', (de_tuple_ok _ _ _ _).2 ⟨ds', rfl, e1, e2, e3⟩, dsame_tuple e4⟩
    | _ => simp [de] at hd
  | tupleStruct _ ih =>
    intro v v' d hs hu hu' hc hd
    cases v with
    | array xs =>
      obtain ⟨ws, rfl⟩ := same_array_left hs
      obtain ⟨ds, rfl, h0, h1, h2⟩ := (de_tupleStruct_ok _ _ _ _).1 hd
      obtain ⟨ds', e1, e2, e3, e4⟩ := order_tuple ih hs hu hu'
        (fun i t' x ht hx hcl => hc (.tupleStruct (i := i) ht hx hcl)) h0 h1 h2
      exact ⟨.tupleStruct ds', (de_tupleStruct_ok _ _ _ _).2 ⟨ds', rfl, e1, e2, e3⟩, dsame_tupleStruct e4⟩
    | _ => simp [de] at hd
  | @map kt t _ ih =>
    intro v v' d hs hu hu' hc hd
    cases v with
    | map m =>
      obtain ⟨n, rfl⟩ := same_map_left hs
      rw [same_map] at hs
      have hu1 := uniqueKeys_map.1 hu
      have hu2 := uniqueKeys_map.1 hu'
      rw [de, bind_eq_ok] at hd
      obtain ⟨es, h0, h2⟩ := hd
      cases h2
      obtain ⟨kds, h1, rfl⟩ := (deMapLoop_ok kt _ m [] es).1 h0
      clear h0
      have nodup : ∀ {m : Entries} {kds : List (Key × Data)}, (m.map Prod.fst).Nodup →
          (∀ a b, a ∈ m.map Prod.fst → b ∈ m.map Prod.fst → a ≠ b → ¬ SameKey kt a b) →
          List.Forall₂ (fun e kd => deKey kt e.1 = Outcome.ok kd.1) m kds → (kds.map Prod.fst).Nodup := by
        intro m kds hn hk h
        have e1 : (kds.map Prod.fst).map Outcome.ok = (m.map Prod.fst).map (deKey kt) := by
          clear hn hk
          induction h with
          | nil => rfl
          | cons h1 _ ih => simp only [List.map_cons, h1, ih]
        refine List.Nodup.of_map (Outcome.ok (ε := ModelError)) ?_
        rw [e1]
        refine List.Nodup.map_on ?_ hn
        intro a ha b hb hab
        by_contra hne
        obtain ⟨ea, ha', rfl⟩ := List.mem_map.1 ha
        obtain ⟨kd, _, h3⟩ := forall2_left h ea ha'
        exact hk _ _ ha hb hne (deKey_sameKey h3 (by rw [← hab]; exact h3))
      have hmem : ∀ {a}, a ∈ m.map Prod.fst → child (.map m) (.key a) ≠ none := by
        intro a ha
        rw [child_key_map, ne_eq, hmGet_eq_none, not_not]; exact ha
      have hk1 : ∀ a b, a ∈ m.map Prod.fst → b ∈ m.map Prod.fst → a ≠ b → ¬ SameKey kt a b :=
        fun a b ha hb hne h => hc (.here hne h (hmem ha) (hmem hb))
      have hkeys : ∀ a, a ∈ n.map Prod.fst → a ∈ m.map Prod.fst := by
        intro a ha
        by_contra h
        rw [← hmGet_eq_none, (hs a).1, hmGet_eq_none] at h
        exact h ha
      have hkeys' : ∀ a, a ∈ m.map Prod.fst → a ∈ n.map Prod.fst := by
        intro a ha
        by_contra h
        rw [← hmGet_eq_none, ← (hs a).1, hmGet_eq_none] at h
        exact h ha
      have hnk := nodup hu1.1 hk1 (h1.imp (fun _ _ h => h.1))
      have step : ∀ e ∈ n, ∃ kd' : Key × Data, (deKey kt e.1 = .ok kd'.1 ∧ de refs t e.2 = .ok kd'.2) ∧
          ∃ x, (kd'.1, x) ∈ kds ∧ DSame x kd'.2 := by
        intro e he
        have hw := hmGet_of_mem hu2.1 (show (e.1, e.2) ∈ n from he)
        have hne : hmGet m e.1 ≠ none := fun h => by rw [(hs e.1).1.1 h] at hw; cases hw
        obtain ⟨x, hx⟩ := Option.ne_none_iff_exists'.1 hne
        obtain ⟨kd, hkd, g1, g2⟩ := forall2_left h1 _ (hmGet_mem hx)
        obtain ⟨d', g3, g4⟩ := ih x e.2 kd.2 ((hs e.1).2 x e.2 hx hw) (uniqueKeys_get hu hx) (hu2.2 e he)
          (fun hcl => hc (.entry (k := e.1) (by rw [child_key_map]; exact hx) hcl)) g2
        exact ⟨(kd.1, d'), ⟨g1, g3⟩, kd.2, hkd, g4⟩
      obtain ⟨kds', h3⟩ := forall2_exists step
      have hnk' := nodup hu2.1 (fun a b ha hb => hk1 a b (hkeys a ha) (hkeys b hb)) (h3.imp (fun _ _ h => h.1.1))
      refine ⟨_, ?_, dsame_map (as := keyInsAll [] kds) (bs := keyInsAll [] kds') ?_⟩
      · rw [de, bind_eq_ok]
        exact ⟨_, (deMapLoop_ok kt _ n [] _).2 ⟨kds', h3.imp (fun _ _ h => h.1), rfl⟩, rfl⟩
      · intro key
        by_cases hkey : key ∈ kds'.map Prod.fst
        · obtain ⟨kd', hkd', rfl⟩ := List.mem_map.1 hkey
          rw [keyGet_insAll_mem kds' [] kd'.1 kd'.2 hnk' hkd']
          obtain ⟨e, he, _, x, hx, hxs⟩ := forall2_right h3 _ hkd'
          rw [keyGet_insAll_mem kds [] kd'.1 x hnk hx]
          refine ⟨by simp, ?_⟩
          intro a b ha hb
          cases ha; cases hb; exact hxs
        · rw [keyGet_insAll_absent kds' [] key hkey]
          have : key ∉ kds.map Prod.fst := by
            intro hk
            obtain ⟨kd, hkd, rfl⟩ := List.mem_map.1 hk
            obtain ⟨e, he, g1, _⟩ := forall2_right h1 _ hkd
            obtain ⟨w, hw⟩ := List.mem_map.1 (hkeys' e.1 (List.mem_map.2 ⟨e, he, rfl⟩))
            obtain ⟨kd', hkd', g2, _⟩ := forall2_left h3 w hw.1
            rw [hw.2, g1] at g2
            exact hkey (List.mem_map.2 ⟨kd', hkd', (Outcome.ok.inj g2.1).symm⟩)
          rw [keyGet_insAll_absent kds [] key this]
          refine ⟨by simp, ?_⟩
          intro x y hx; simp [keyGet] at hx
    | _ => simp [de] at hd
  | struct hn _ ih => exact order_struct hn ih
  | ref n => exact hr n

theorem order_refs {structs : Nat → List (String × Ty)} (hs : ∀ n, WellFormed (.struct (structs n))) :
    ∀ k n, OrderFree (refsAt structs k) structs (.ref n) := by
  intro k
  induction k with
  | zero => intro n v v' d _ _ _ _ hd; rw [de, refsAt] at hd; cases hd
  | succ k ih =>
    intro n v v' d hs' hu hu' hc hd
    rw [de, refsAt] at hd
    obtain ⟨d', h1, h2⟩ := order_free ih (hs n) v v' d hs' hu hu' (fun h => hc (.ref h)) hd
    exact ⟨d', by rw [de, refsAt]; exact h1, h2⟩

end Verif
