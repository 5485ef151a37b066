import Verif.Spec.Blame
import Verif.Props.Footprint
import Verif.Props.Attrs
import Verif.Lemmas.Toml
import Verif.Model.Errors
/-!
# C132: who is to blame for an error, and what it reveals
-/
namespace Verif.Props
open Spec

theorem bind_eq_err {ε α β : Type} {x : Outcome ε α} {f : α → Outcome ε β} {e : ε} :
    (x >>= f) = .err e ↔ x = .err e ∨ ∃ a, x = .ok a ∧ f a = .err e := by
  cases x <;> simp

theorem ofExcept_err {ε α : Type} {x : Except ε α} {e : ε} : Outcome.ofExcept x = .err e ↔ x = .error e := by
  cases x <;> simp [Outcome.ofExcept]

theorem deVecLoop_err {dec : Decoder} {e : ModelError} : ∀ (xs : List Value) (acc : List Data), deVecLoop dec acc xs = .err e →
    ∃ (i : Nat) (x : Value), xs[i]? = some x ∧ dec x = .err e := by
  intro xs
  induction xs with
  | nil => intro acc h; cases h
  | cons x r ih =>
    intro acc h
    rw [deVecLoop, bind_eq_err] at h
    rcases h with h | ⟨d, -, h⟩
    · exact ⟨0, x, rfl, h⟩
    · obtain ⟨i, y, h1, h2⟩ := ih _ h
      exact ⟨i + 1, y, h1, h2⟩

theorem deTupleLoop_err {e : ModelError} : ∀ (decs : List Decoder) (xs : List Value) (i : Nat) (acc : List Data),
    deTupleLoop i acc decs xs = .err e → (∃ (j : Nat) (dec : Decoder) (x : Value), decs[j]? = some dec ∧ xs[j]? = some x ∧ dec x = .err e) ∨
      (xs.length < decs.length ∧ e = .deserializationError ("invalid length " ++ String.ofList (decNat (i + xs.length)))) := by
  intro decs
  induction decs with
  | nil => intro xs i acc h; cases h
  | cons dec ds ih =>
    intro xs i acc h
    cases xs with
    | nil => rw [deTupleLoop] at h; cases h; exact .inr ⟨by simp, rfl⟩
    | cons x r =>
      rw [deTupleLoop, bind_eq_err] at h
      rcases h with h | ⟨d, -, h⟩
      · exact .inl ⟨0, dec, x, rfl, rfl, h⟩
      · rcases ih _ _ _ h with ⟨j, dec', x', h1, h2, h3⟩ | ⟨h1, h2⟩
        · exact .inl ⟨j + 1, dec', x', h1, h2, h3⟩
        · refine .inr ⟨by simpa using h1, ?_⟩
          rw [h2, List.length_cons, Nat.add_right_comm, Nat.add_assoc]

theorem deMapLoop_err {kt : KeyTy} {dec : Decoder} {e : ModelError} : ∀ (m : Entries) (acc : List (Key × Data)), deMapLoop kt dec acc m = .err e →
    ∃ en ∈ m, deKey kt en.1 = .err e ∨ dec en.2 = .err e := by
  intro m
  induction m with
  | nil => intro acc h; cases h
  | cons en r ih =>
    intro acc h
    obtain ⟨k, v⟩ := en
    rw [deMapLoop, bind_eq_err] at h
    rcases h with h | ⟨d, -, h⟩
    · exact ⟨_, List.mem_cons_self, .inl h⟩
    · rw [bind_eq_err] at h
      rcases h with h | ⟨d, -, h⟩
      · exact ⟨_, List.mem_cons_self, .inr h⟩
      · obtain ⟨x, h1, h2⟩ := ih _ h
        exact ⟨x, List.mem_cons_of_mem _ h1, h2⟩

theorem deStructLoop_err {fds : List FieldDec} {e : ModelError} : ∀ (m : Entries) (acc : List (String × Data)), (m.map Prod.fst).Nodup →
    (∀ k ∈ m.map Prod.fst, hmGet acc k = none) → deStructLoop fds acc m = .err e →
    ∃ en ∈ m, ∃ fd ∈ fds, fd.name = en.1 ∧ fd.dec en.2 = .err e := by
  intro m
  induction m with
  | nil => intro acc _ _ h; cases h
  | cons en r ih =>
    intro acc hn ha h
    obtain ⟨k, v⟩ := en
    simp only [List.map_cons, List.nodup_cons] at hn
    rw [deStructLoop, string_self, Outcome.bind_ok] at h
    have up : ∀ {P : Prop}, (∃ en ∈ r, ∃ fd ∈ fds, fd.name = en.1 ∧ fd.dec en.2 = .err e) →
        ∃ en ∈ (k, v) :: r, ∃ fd ∈ fds, fd.name = en.1 ∧ fd.dec en.2 = .err e := by
      rintro - ⟨x, hx, hr⟩; exact ⟨x, List.mem_cons_of_mem _ hx, hr⟩
    cases hf : fds.find? (fun fd => fd.name == k) with
    | none =>
      simp only [hf] at h
      rw [deIgnored_ok, Outcome.bind_ok] at h
      exact up (P := True) (ih acc hn.2 (fun j hj => ha j (List.mem_cons_of_mem _ hj)) h)
    | some fd =>
      simp only [hf, ha k (by simp)] at h
      simp only [Option.isSome_none, Bool.false_eq_true, if_false] at h
      rw [bind_eq_err] at h
      rcases h with h | ⟨d, -, h⟩
      · exact ⟨_, List.mem_cons_self, fd, List.mem_of_find?_eq_some hf, by simpa using List.find?_some hf, h⟩
      · refine up (P := True) (ih _ hn.2 (fun j hj => ?_) h)
        rw [hmGet_insert, if_neg]
        · exact ha j (List.mem_cons_of_mem _ hj)
        · rintro rfl; exact hn.1 hj

theorem deStructFinish_err {acc : List (String × Data)} {e : ModelError} : ∀ (fds : List FieldDec), deStructFinish acc fds = .err e →
    ∃ fd ∈ fds, hmGet acc fd.name = none ∧ fd.missing = .err e := by
  intro fds
  induction fds with
  | nil => intro h; cases h
  | cons fd r ih =>
    intro h
    rw [deStructFinish, bind_eq_err] at h
    rcases h with h | ⟨d, -, h⟩
    · cases hg : hmGet acc fd.name with
      | none => rw [hg] at h; exact ⟨fd, List.mem_cons_self, hg, h⟩
      | some d => rw [hg] at h; cases h
    · rw [bind_eq_err] at h
      rcases h with h | ⟨d, -, h⟩
      · obtain ⟨x, h1, h2⟩ := ih h
        exact ⟨x, List.mem_cons_of_mem _ h1, h2⟩
      · cases h

/-- A struct's error is one of a field's, or that a field is missing. -/
theorem de_struct_err {refs : Nat → Decoder} {fs : List (String × Ty)} (hf : (fs.map Prod.fst).Nodup) {m : Entries} (hn : (m.map Prod.fst).Nodup)
    {e : ModelError} (h : de refs (.struct fs) (.map m) = .err e) :
    (∃ name t x, (name, t) ∈ fs ∧ hmGet m name = some x ∧ de refs t x = .err e) ∨
      ∃ name t, (name, t) ∈ fs ∧ hmGet m name = none ∧ missingField name t = .err e := by
  rw [de, fieldDecoders_eq] at h
  simp only [deStruct] at h
  rw [bind_eq_err] at h
  rcases h with h | ⟨acc, ha, h⟩
  · obtain ⟨en, h1, fd, h2, h3, h4⟩ := deStructLoop_err m [] hn (by simp) h
    obtain ⟨f, hfm, rfl⟩ := List.mem_map.1 h2
    have e1 : f.1 = en.1 := h3
    exact .inl ⟨f.1, f.2, en.2, hfm, by rw [e1]; exact hmGet_of_mem hn h1, h4⟩
  · rw [bind_eq_err] at h
    rcases h with h | ⟨d, -, h⟩
    · obtain ⟨fd, h1, h2, h3⟩ := deStructFinish_err _ h
      obtain ⟨f, hfm, rfl⟩ := List.mem_map.1 h1
      refine .inr ⟨f.1, f.2, hfm, ?_, h3⟩
      have := deStructLoop_get _ m [] acc hn ha f.1
      rw [find_field (fd := ⟨f.1, de refs f.2, missingField f.1 f.2⟩) (by rw [List.map_map]; exact hf) (List.mem_map.2 ⟨f, hfm, rfl⟩)] at this
      cases hm : hmGet m f.1 with
      | none => rfl
      | some x =>
        simp only [hm] at this
        obtain ⟨d, -, hd⟩ := this
        have h2' : hmGet acc f.1 = none := h2
        rw [h2'] at hd; cases hd
    · cases h

theorem deInt_complains {t : IntTy} {v : Value} {e : ModelError} (h : deInt t v = .err e) : Complains (.int t) v e := by
  cases t <;> simp only [deInt, ofExcept_err] at h <;> first
    | (cases h; first | exact .i128 v | exact .u128 v)
    | exact .scalar rfl h

theorem deKey_complains {kt : KeyTy} {k : String} {e : ModelError} (h : deKey kt k = .err e) : Complains (keyTy kt) (.string k) e := by
  cases kt <;> simp only [deKey, bind_eq_err, ofExcept_err] at h <;> rcases h with h | ⟨a, -, h⟩ <;> first
    | (cases h; done)
    | exact .scalar rfl h
    | exact deInt_complains h

/-- Something that is reached complains with the error. -/
def Blamed (structs : Nat → List (String × Ty)) (t : Ty) (v : Value) (e : ModelError) : Prop :=
  ∃ p u x, Reaches structs t v p u x ∧ Complains u x e

theorem blamed_struct {refs : Nat → Decoder} {structs : Nat → List (String × Ty)} {fs : List (String × Ty)} (hn : (fs.map Prod.fst).Nodup)
    (ih : ∀ f ∈ fs, ∀ v e, UniqueKeys v → de refs (Prod.snd f) v = .err e → Blamed structs f.2 v e) (v : Value) (e : ModelError) (hu : UniqueKeys v)
    (h : de refs (.struct fs) v = .err e) : Blamed structs (.struct fs) v e := by
  cases v with
  | map m =>
    rcases de_struct_err hn (uniqueKeys_map.1 hu).1 h with ⟨name, t, x, h1, h2, h3⟩ | ⟨name, t, h1, h2, h3⟩
    · obtain ⟨p, u, y, h4, h5⟩ := ih _ h1 x e (uniqueKeys_get hu h2) h3
      exact ⟨_, u, y, .struct h1 (by rw [child_key_map]; exact h2) h4, h5⟩
    · have ho : ∀ u, t ≠ .option u := by rintro u rfl; cases h3
      have he : e = .deserializationError ("missing field `" ++ name ++ "`") := by
        cases t <;> simp only [missingField] at h3 <;> first | (cases h3; rfl) | exact absurd rfl (ho _)
      subst he
      exact ⟨[], _, _, .here _ _, .missing h1 ho (by rw [child_key_map]; exact h2)⟩
  | _ =>
    rw [de] at h
    simp only [deStruct] at h
    cases h
    exact ⟨[], _, _, .here _ _, .shape (.struct fs) (by rintro ⟨m, hm⟩; cases hm)⟩

theorem blamed_tuple {refs : Nat → Decoder} {structs : Nat → List (String × Ty)} {ts : List Ty}
    (ih : ∀ t ∈ ts, ∀ v e, UniqueKeys v → de refs t v = .err e → Blamed structs t v e) {xs : List Value} {e : ModelError} (hu : UniqueKeys (.array xs))
    (h : deTupleLoop 0 [] (decoders refs ts) xs = .err e) :
    (∃ (i : Nat) (t : Ty) (x : Value), ts[i]? = some t ∧ xs[i]? = some x ∧ Blamed structs t x e) ∨
      (xs.length < ts.length ∧ e = .deserializationError ("invalid length " ++ String.ofList (decNat xs.length))) := by
  rcases deTupleLoop_err _ _ _ _ h with ⟨j, dec, x, h1, h2, h3⟩ | ⟨h1, h2⟩
  · rw [decoders_get] at h1
    cases ht : ts[j]? with
    | none => rw [ht] at h1; cases h1
    | some t =>
      rw [ht] at h1; cases h1
      exact .inl ⟨j, t, x, ht, h2, ih t (List.mem_of_getElem? ht) x e (uniqueKeys_array.1 hu x (List.mem_of_getElem? h2)) h3⟩
  · rw [decoders_length] at h1
    exact .inr ⟨h1, by simpa using h2⟩

theorem blamed_de {refs : Nat → Decoder} {structs : Nat → List (String × Ty)}
    (hr : ∀ n v e, UniqueKeys v → refs n v = .err e → Blamed structs (.ref n) v e) {T : Ty} (hT : WellFormed T) :
    ∀ v e, UniqueKeys v → de refs T v = .err e → Blamed structs T v e := by
  induction hT with
  | bool =>
    intro v e hu h
    rw [de, bind_eq_err, ofExcept_err] at h
    rcases h with h | ⟨a, -, h⟩
    · exact ⟨[], _, _, .here _ _, .scalar rfl h⟩
    · cases h
  | int t =>
    intro v e hu h
    rw [de, bind_eq_err] at h
    rcases h with h | ⟨a, -, h⟩
    · exact ⟨[], _, _, .here _ _, deInt_complains h⟩
    · cases h
  | f32 =>
    intro v e hu h
    rw [de, bind_eq_err, ofExcept_err] at h
    rcases h with h | ⟨a, -, h⟩
    · exact ⟨[], _, _, .here _ _, .scalar rfl h⟩
    · cases h
  | f64 =>
    intro v e hu h
    rw [de, bind_eq_err, ofExcept_err] at h
    rcases h with h | ⟨a, -, h⟩
    · exact ⟨[], _, _, .here _ _, .scalar rfl h⟩
    · cases h
  | char =>
    intro v e hu h
    rw [de, bind_eq_err, ofExcept_err] at h
    rcases h with h | ⟨a, -, h⟩
    · exact ⟨[], _, _, .here _ _, .scalar rfl h⟩
    · cases h
  | string =>
    intro v e hu h
    rw [de, bind_eq_err, ofExcept_err] at h
    rcases h with h | ⟨a, -, h⟩
    · exact ⟨[], _, _, .here _ _, .scalar rfl h⟩
    · cases h
  | unit =>
    intro v e hu h
    cases v <;> simp only [de, Outcome.err.injEq, reduceCtorEq] at h
    all_goals (subst h; exact ⟨[], _, _, .here _ _, .shape .unit (by intro hh; cases hh)⟩)
  | unitStruct =>
    intro v e hu h
    cases v <;> simp only [de, Outcome.err.injEq, reduceCtorEq] at h
    all_goals (subst h; exact ⟨[], _, _, .here _ _, .shape .unitStruct (by intro hh; cases hh)⟩)
  | value =>
    intro v e hu h
    obtain ⟨w, hw⟩ := deValue_noPanic v
    rw [de, hw] at h; cases h
  | bytes => intro v e hu h; rw [de] at h; cases h
  | enum => intro v e hu h; rw [de] at h; cases h
  | @option t _ ih =>
    intro v e hu h
    by_cases hv : v = .none
    · subst hv; rw [de] at h; cases h
    · have h' : (de refs t v >>= fun d => Outcome.ok (Data.some d)) = .err e := by
        cases v <;> first | exact absurd rfl hv | (simp only [de] at h; exact h)
      rw [bind_eq_err] at h'
      rcases h' with h' | ⟨a, -, h'⟩
      · obtain ⟨p, u, x, h1, h2⟩ := ih v e hu h'
        exact ⟨p, u, x, .option hv h1, h2⟩
      · cases h'
  | newtype _ ih =>
    intro v e hu h
    rw [de, bind_eq_err] at h
    rcases h with h | ⟨a, -, h⟩
    · obtain ⟨p, u, x, h1, h2⟩ := ih v e hu h
      exact ⟨p, u, x, .newtype h1, h2⟩
    · cases h
  | seq _ ih =>
    intro v e hu h
    cases v with
    | array xs =>
      simp only [de] at h
      rw [bind_eq_err] at h
      rcases h with h | ⟨a, -, h⟩
      · obtain ⟨i, x, h1, h2⟩ := deVecLoop_err _ _ h
        obtain ⟨p, u, y, h3, h4⟩ := ih x e (uniqueKeys_array.1 hu x (List.mem_of_getElem? h1)) h2
        exact ⟨_, u, y, .seq (v := .array xs) h1 h3, h4⟩
      · cases h
    | _ => simp only [de, Outcome.err.injEq] at h; subst h; exact ⟨[], _, _, .here _ _, .shape (.seq _) (by rintro ⟨m, hm⟩; cases hm)⟩
  | tuple _ ih =>
    intro v e hu h
    cases v with
    | array xs =>
      simp only [de] at h
      rw [bind_eq_err] at h
      rcases h with h | ⟨a, -, h⟩
      · rcases blamed_tuple ih hu h with ⟨i, t, x, h1, h2, p, u, y, h3, h4⟩ | ⟨h1, rfl⟩
        · exact ⟨_, u, y, .tuple (v := .array xs) h1 h2 h3, h4⟩
        · exact ⟨[], _, _, .here _ _, .tooShort h1⟩
      · cases h
    | _ => simp only [de, Outcome.err.injEq] at h; subst h; exact ⟨[], _, _, .here _ _, .shape (.tuple _) (by rintro ⟨m, hm⟩; cases hm)⟩
  | tupleStruct _ ih =>
    intro v e hu h
    cases v with
    | array xs =>
      simp only [de] at h
      rw [bind_eq_err] at h
      rcases h with h | ⟨a, -, h⟩
      · rcases blamed_tuple ih hu h with ⟨i, t, x, h1, h2, p, u, y, h3, h4⟩ | ⟨h1, rfl⟩
        · exact ⟨_, u, y, .tupleStruct (v := .array xs) h1 h2 h3, h4⟩
        · exact ⟨[], _, _, .here _ _, .tooShortStruct h1⟩
      · cases h
    | _ => simp only [de, Outcome.err.injEq] at h; subst h; exact ⟨[], _, _, .here _ _, .shape (.tupleStruct _) (by rintro ⟨m, hm⟩; cases hm)⟩
  | map _ ih =>
    intro v e hu h
    cases v with
    | map m =>
      simp only [de] at h
      rw [bind_eq_err] at h
      rcases h with h | ⟨a, -, h⟩
      · obtain ⟨⟨k, x⟩, h1, h2⟩ := deMapLoop_err _ _ h
        have hg : child (.map m) (.key k) = some x := by rw [child_key_map]; exact hmGet_of_mem (uniqueKeys_map.1 hu).1 h1
        rcases h2 with h2 | h2
        · exact ⟨[], _, _, .here _ _, .key hg (deKey_complains h2)⟩
        · obtain ⟨p, u, y, h3, h4⟩ := ih x e ((uniqueKeys_map.1 hu).2 _ h1) h2
          exact ⟨_, u, y, .map hg h3, h4⟩
      · cases h
    | _ => simp only [de, Outcome.err.injEq] at h; subst h; exact ⟨[], _, _, .here _ _, .shape (.map _ _) (by rintro ⟨m, hm⟩; cases hm)⟩
  | struct hn _ ih => exact fun v e hu h => blamed_struct hn ih v e hu h
  | ref n => intro v e hu h; rw [de] at h; exact hr n v e hu h

theorem blamed_refs {structs : Nat → List (String × Ty)} (hs : ∀ n, WellFormed (.struct (structs n))) (k : Nat) :
    ∀ n v e, UniqueKeys v → refsAt structs k n v = .err e → Blamed structs (.ref n) v e := by
  induction k with
  | zero => intro n v e _ h; cases h
  | succ k ih =>
    intro n v e hu h
    obtain ⟨p, u, x, h1, h2⟩ := blamed_de ih (hs n) v e hu h
    exact ⟨p, u, x, .ref h1, h2⟩

/-- **C132.** Every error of reading settings is the complaint of a part of the value that the type reaches: nothing else is ever reported, and the text is
exactly that of the list `Complains`. -/
theorem C132_origin (structs : Nat → List (String × Ty)) (hs : ∀ n, WellFormed (.struct (structs n))) (T : Ty) (hT : WellFormed T) (v : Value)
    (hv : UniqueKeys v) (k : Nat) (e : ModelError) (h : deAt structs k T v = .err e) : ∃ p t x, Reaches structs T v p t x ∧ Complains t x e :=
  blamed_de (blamed_refs hs k) hT v e hv h

/-! ## The converse -/

theorem de_option_inner {refs : Nat → Decoder} {t : Ty} {v : Value} {d : Data} (hv : v ≠ .none) (h : de refs (.option t) v = .ok d) :
    ∃ d', de refs t v = .ok d' := by
  have h' : (de refs t v >>= fun d => Outcome.ok (Data.some d)) = .ok d := by
    cases v <;> first | exact absurd rfl hv | (simp only [de] at h; exact h)
  obtain ⟨d', h1, -⟩ := bind_eq_ok.1 h'
  exact ⟨d', h1⟩

theorem child_idx_array {v w : Value} {i : Nat} (h : child v (.idx i) = some w) : ∃ xs, v = .array xs ∧ xs[i]? = some w := by
  cases v <;> first | exact ⟨_, rfl, h⟩ | cases h

theorem child_key_is_map {v w : Value} {k : String} (h : child v (.key k) = some w) : ∃ m, v = .map m ∧ hmGet m k = some w := by
  cases v <;> first | exact ⟨_, rfl, by rw [← child_key_map]; exact h⟩ | cases h

/-- If reading the whole succeeds, so does reading each part that it reaches. -/
theorem reaches_ok {structs : Nat → List (String × Ty)} (hs : ∀ n, WellFormed (.struct (structs n))) {T : Ty} {v : Value} {p : Path} {u : Ty} {x : Value}
    (hr : Reaches structs T v p u x) : WellFormed T → UniqueKeys v → WellFormed u ∧ UniqueKeys x ∧
      ∀ k d, deAt structs k T v = .ok d → ∃ k' d', deAt structs k' u x = .ok d' := by
  induction hr with
  | here => exact fun hT hu => ⟨hT, hu, fun k d h => ⟨k, d, h⟩⟩
  | option hv _ ih =>
    intro hT hu
    cases hT with
    | option hT =>
    obtain ⟨h1, h2, h3⟩ := ih hT hu
    refine ⟨h1, h2, fun k d h => ?_⟩
    obtain ⟨d', hd⟩ := de_option_inner hv h
    exact h3 k d' hd
  | newtype _ ih =>
    intro hT hu
    cases hT with
    | newtype hT =>
    obtain ⟨h1, h2, h3⟩ := ih hT hu
    refine ⟨h1, h2, fun k d h => ?_⟩
    rw [deAt, de, bind_eq_ok] at h
    obtain ⟨d', hd, -⟩ := h
    exact h3 k d' hd
  | seq hc _ ih =>
    intro hT hu
    cases hT with
    | seq hT =>
    obtain ⟨h1, h2, h3⟩ := ih hT (uniqueKeys_child hu hc)
    refine ⟨h1, h2, fun k d h => ?_⟩
    obtain ⟨xs, rfl, hx⟩ := child_idx_array hc
    obtain ⟨ds, -, hl, hd⟩ := (de_seq_ok _ _ _ _).1 h
    obtain ⟨y, hy⟩ := get_of_lt (show _ < ds.length by rw [hl]; exact lt_of_get hx)
    exact h3 k y (hd _ _ y hx hy)
  | tuple ht hc _ ih =>
    intro hT hu
    cases hT with
    | tuple hT =>
    obtain ⟨h1, h2, h3⟩ := ih (hT _ (List.mem_of_getElem? ht)) (uniqueKeys_child hu hc)
    refine ⟨h1, h2, fun k d h => ?_⟩
    obtain ⟨xs, rfl, hx⟩ := child_idx_array hc
    obtain ⟨ds, -, -, hl, hd⟩ := (de_tuple_ok _ _ _ _).1 h
    obtain ⟨y, hy⟩ := get_of_lt (show _ < ds.length by rw [hl]; exact lt_of_get ht)
    exact h3 k y (hd _ _ _ y ht hx hy)
  | tupleStruct ht hc _ ih =>
    intro hT hu
    cases hT with
    | tupleStruct hT =>
    obtain ⟨h1, h2, h3⟩ := ih (hT _ (List.mem_of_getElem? ht)) (uniqueKeys_child hu hc)
    refine ⟨h1, h2, fun k d h => ?_⟩
    obtain ⟨xs, rfl, hx⟩ := child_idx_array hc
    obtain ⟨ds, -, -, hl, hd⟩ := (de_tupleStruct_ok _ _ _ _).1 h
    obtain ⟨y, hy⟩ := get_of_lt (show _ < ds.length by rw [hl]; exact lt_of_get ht)
    exact h3 k y (hd _ _ _ y ht hx hy)
  | map hc _ ih =>
    intro hT hu
    cases hT with
    | map hT =>
    obtain ⟨h1, h2, h3⟩ := ih hT (uniqueKeys_child hu hc)
    refine ⟨h1, h2, fun k d h => ?_⟩
    obtain ⟨m, rfl, hx⟩ := child_key_is_map hc
    rw [deAt, de, bind_eq_ok] at h
    obtain ⟨es, h, -⟩ := h
    obtain ⟨kds, hf, -⟩ := (deMapLoop_ok _ _ _ _ _).1 h
    obtain ⟨kd, -, -, h4⟩ := forall2_left hf _ (hmGet_mem hx)
    exact h3 k _ h4
  | struct hf hc _ ih =>
    intro hT hu
    cases hT with
    | struct hn hT =>
    obtain ⟨h1, h2, h3⟩ := ih (hT _ hf) (uniqueKeys_child hu hc)
    refine ⟨h1, h2, fun k d h => ?_⟩
    obtain ⟨m, rfl, hx⟩ := child_key_is_map hc
    obtain ⟨ds, -, hd⟩ := (de_struct_ok _ _ hn _ (uniqueKeys_map.1 hu).1 _).1 h
    obtain ⟨nd, -, -, h4⟩ := forall2_left hd _ hf
    simp only [hx] at h4
    exact h3 k _ h4
  | @ref n _ _ _ _ _ ih =>
    intro _ hu
    obtain ⟨h1, h2, h3⟩ := ih (hs _) hu
    refine ⟨h1, h2, fun k d h => ?_⟩
    rw [deAt, de] at h
    cases k with
    | zero => cases h
    | succ k => exact h3 k d h

theorem deScalar_not_ok {refs : Nat → Decoder} {t : Ty} {s : Scalar} {v : Value} {e : ModelError} (hs : scalarOf t = some s)
    (h : v.tryInto s = .error e) (d : Data) : de refs t v ≠ .ok d := by
  intro hd
  cases t with
  | bool => cases hs; rw [de, h] at hd; cases hd
  | int t =>
    rw [de] at hd
    cases t <;> first | (cases hs; done) | (cases hs; simp only [deInt, h] at hd; cases hd)
  | f32 => cases hs; rw [de, h] at hd; cases hd
  | f64 => cases hs; rw [de, h] at hd; cases hd
  | char => cases hs; rw [de, h] at hd; cases hd
  | string => cases hs; rw [de, h] at hd; cases hd
  | _ => cases hs

theorem deKey_not_ok {kt : KeyTy} {k : String} {e : ModelError} (h : Complains (keyTy kt) (.string k) e) (key : Key) : deKey kt k ≠ .ok key := by
  intro hk
  have : ∃ d, de (fun _ _ => .panic) (keyTy kt) (.string k) = .ok d := by
    cases kt <;> simp only [deKey, bind_eq_ok] at hk <;> obtain ⟨a, ha, -⟩ := hk <;> rw [keyTy, de, ha] <;> exact ⟨_, rfl⟩
  obtain ⟨d, hd⟩ := this
  generalize hT : keyTy kt = T at h hd
  generalize hv : Value.string k = v at h hd
  cases h with
  | scalar hs he => exact deScalar_not_ok hs he d hd
  | i128 => rw [de] at hd; cases hd
  | u128 => rw [de] at hd; cases hd
  | shape hn _ => cases kt <;> cases hT <;> cases hn
  | tooShort => cases hv
  | tooShortStruct => cases hv
  | key => cases kt <;> cases hT
  | missing => cases hv

theorem complains_not_ok {refs : Nat → Decoder} {u : Ty} {x : Value} {e : ModelError} (hT : WellFormed u) (hu : UniqueKeys x) (h : Complains u x e)
    (d : Data) : de refs u x ≠ .ok d := by
  intro hd
  cases h with
  | scalar hs he => exact deScalar_not_ok hs he d hd
  | i128 => rw [de] at hd; cases hd
  | u128 => rw [de] at hd; cases hd
  | shape hn hx =>
    cases hn <;> cases x <;> first
      | exact hx rfl
      | exact hx ⟨_, rfl⟩
      | (simp only [de] at hd; cases hd; done)
      | (simp only [de, deStruct] at hd; cases hd; done)
  | tooShort hl =>
    obtain ⟨ds, -, h1, -⟩ := (de_tuple_ok _ _ _ _).1 hd
    omega
  | tooShortStruct hl =>
    obtain ⟨ds, -, h1, -⟩ := (de_tupleStruct_ok _ _ _ _).1 hd
    omega
  | key hc hk =>
    obtain ⟨m, rfl, hx⟩ := child_key_is_map hc
    rw [de, bind_eq_ok] at hd
    obtain ⟨es, h, -⟩ := hd
    obtain ⟨kds, hf, -⟩ := (deMapLoop_ok _ _ _ _ _).1 h
    obtain ⟨kd, -, h4, -⟩ := forall2_left hf _ (hmGet_mem hx)
    exact deKey_not_ok hk _ h4
  | @missing fs m name t hf ho hc =>
    cases hT with
    | struct hn hT =>
    obtain ⟨ds, -, hd⟩ := (de_struct_ok _ _ hn _ (uniqueKeys_map.1 hu).1 _).1 hd
    obtain ⟨nd, -, -, h4⟩ := forall2_left hd _ hf
    rw [child_key_map] at hc
    simp only [hc] at h4
    cases t <;> simp only [missingField, reduceCtorEq] at h4
    exact ho _ rfl

/-- **C132.** Reading fails with an error exactly if some part that the type reaches complains (types without enums and byte buffers, which panic; the stack
holding as many nested structs as the value has levels): there is no other reason for an error. -/
theorem C132_exact (structs : Nat → List (String × Ty)) (hs : ∀ n, WellFormed (.struct (structs n))) (hs' : ∀ n, NoEnumNoBytes (.struct (structs n)))
    (T : Ty) (hT : WellFormed T) (hT' : NoEnumNoBytes T) (v : Value) (hv : UniqueKeys v) (k : Nat) (hk : DepthBelow v k) :
    (∃ e, deAt structs k T v = .err e) ↔ ∃ p t x e, Reaches structs T v p t x ∧ Complains t x e := by
  constructor
  · rintro ⟨e, h⟩
    obtain ⟨p, t, x, h1, h2⟩ := C132_origin structs hs T hT v hv k e h
    exact ⟨p, t, x, e, h1, h2⟩
  · rintro ⟨p, t, x, e, h1, h2⟩
    cases h : deAt structs k T v with
    | err e => exact ⟨e, rfl⟩
    | panic => exact absurd h (C38_no_panic structs hs' T hT' v hv k hk)
    | ok d =>
      obtain ⟨h3, h4, h5⟩ := reaches_ok hs h1 hT hv
      obtain ⟨k', d', h6⟩ := h5 k d h
      exact absurd h6 (complains_not_ok h3 h4 h2 d')

/-- **C132.** If there is one thing wrong with the value, that is the error, whatever else is in the value and in whatever order. -/
theorem C132_only (structs : Nat → List (String × Ty)) (hs : ∀ n, WellFormed (.struct (structs n))) (hs' : ∀ n, NoEnumNoBytes (.struct (structs n)))
    (T : Ty) (hT : WellFormed T) (hT' : NoEnumNoBytes T) (v : Value) (hv : UniqueKeys v) (k : Nat) (hk : DepthBelow v k)
    (p : Path) (t : Ty) (x : Value) (e : ModelError) (h1 : Reaches structs T v p t x) (h2 : Complains t x e)
    (h3 : ∀ p' t' x' e', Reaches structs T v p' t' x' → Complains t' x' e' → e' = e) : deAt structs k T v = .err e := by
  obtain ⟨e', h⟩ := (C132_exact structs hs hs' T hT hT' v hv k hk).2 ⟨p, t, x, e, h1, h2⟩
  obtain ⟨p', t', x', h4, h5⟩ := C132_origin structs hs T hT v hv k e' h
  rw [h, h3 p' t' x' e' h4 h5]

/-! ## What is shown -/

theorem namedSource_kind {s : Scalar} {v v' : Value} (h : SameKind v v') : namedSource s v = namedSource s v' := by
  cases v <;> cases v' <;> first | rfl | exact h.elim

theorem namedReason_kind {s : Scalar} {v v' : Value} (h : SameKind v v') : namedReason s v = namedReason s v' := by
  cases v <;> cases v' <;> first | rfl | exact h.elim

theorem integerOf_kind {v v' : Value} (h : SameKind v v') : (integerOf v).isSome = (integerOf v').isSome := by
  cases v <;> cases v' <;> first | rfl | exact h.elim

/-- **C132.** The error of a scalar setting tells the kind of the value, not the value: two values of the same kind that are both refused get the same error. -/
theorem C132_scalar (t : Ty) (s : Scalar) (hs : scalarOf t = some s) (v v' : Value) (hk : SameKind v v') (e e' : ModelError)
    (h : Complains t v e) (h' : Complains t v' e') : e = e' := by
  have ex : ∀ v e, Complains t v e → v.tryInto s = .error e := by
    intro v e h
    cases h with
    | scalar h1 h2 => rw [hs] at h1; cases h1; exact h2
    | i128 => cases hs
    | u128 => cases hs
    | shape hn => cases hn <;> cases hs
    | tooShort => cases hs
    | tooShortStruct => cases hs
    | key => cases hs
    | missing => cases hs
  rw [C31_error_exact s v e (ex v e h), C31_error_exact s v' e' (ex v' e' h'), namedSource_kind hk, namedReason_kind hk, integerOf_kind hk]

theorem OccursIn.refl (a : String) : OccursIn a a := ⟨"", "", by simp⟩

theorem OccursIn.trans {a b c : String} (h1 : OccursIn a b) (h2 : OccursIn b c) : OccursIn a c := by
  obtain ⟨x, y, rfl⟩ := h1
  obtain ⟨x', y', rfl⟩ := h2
  exact ⟨x' ++ x, y ++ y', by simp only [String.append_assoc]⟩

theorem OccursIn.left {a b : String} (c : String) (h : OccursIn a b) : OccursIn a (c ++ b) := OccursIn.trans h ⟨c, "", by simp⟩
theorem OccursIn.right {a b : String} (c : String) (h : OccursIn a b) : OccursIn a (b ++ c) := OccursIn.trans h ⟨"", c, by simp⟩

theorem occurs_elems {x : Value} : ∀ {xs : List Value} (first : Bool), x ∈ xs → OccursIn x.display (displayElems first xs) := by
  intro xs
  induction xs with
  | nil => intro _ h; cases h
  | cons y r ih =>
    intro first h
    rw [displayElems]
    rcases List.mem_cons.1 h with rfl | h
    · exact OccursIn.right _ (OccursIn.left _ (OccursIn.refl _))
    · exact OccursIn.left _ (ih false h)

theorem occurs_entries {k : String} {x : Value} : ∀ {m : Entries} (first : Bool), (k, x) ∈ m → OccursIn (k ++ ": " ++ x.display) (displayEntries first m) := by
  intro m
  induction m with
  | nil => intro _ h; cases h
  | cons y r ih =>
    intro first h
    rw [displayEntries]
    rcases List.mem_cons.1 h with rfl | h
    · exact OccursIn.right _ (OccursIn.left _ (by rw [displayEntry]; exact OccursIn.refl _))
    · exact OccursIn.left _ (ih false h)

theorem occurs_child {v x : Value} {s : Step} (h : child v s = some x) : OccursIn x.display v.display := by
  cases s with
  | idx i =>
    obtain ⟨xs, rfl, hx⟩ := child_idx_array h
    rw [Value.display]
    exact OccursIn.right _ (OccursIn.left _ (occurs_elems true (List.mem_of_getElem? hx)))
  | key k =>
    obtain ⟨m, rfl, hx⟩ := child_key_is_map h
    rw [Value.display]
    exact OccursIn.right _ (OccursIn.left _ (OccursIn.trans (OccursIn.left _ (OccursIn.refl _)) (occurs_entries true (hmGet_mem hx))))

theorem occurs_cannot (x : Value) (name : String) :
    OccursIn x.display (ModelError.deserializationError ("Can't deserialize " ++ x.display ++ " to " ++ name)).display := by
  generalize x.display = d
  have gen : ∀ a b c d n : String, OccursIn d (a ++ (b ++ d ++ c ++ n)) := fun a b c d n => ⟨a ++ b, c ++ n, by simp only [String.append_assoc]⟩
  unfold ModelError.display
  exact gen _ _ _ _ _

/-- **C132.** A setting of the wrong shape (a section where a list is expected, a list where a section is expected, a scalar for either) is shown whole in the
error: every text, number and key in it, at any depth, occurs in the message. So one misplaced section puts all its secrets into the log. -/
theorem C132_shown (structs : Nat → List (String × Ty)) (hs : ∀ n, WellFormed (.struct (structs n))) (hs' : ∀ n, NoEnumNoBytes (.struct (structs n)))
    (T : Ty) (hT : WellFormed T) (hT' : NoEnumNoBytes T) (v : Value) (hv : UniqueKeys v) (k : Nat) (hk : DepthBelow v k)
    (p : Path) (t : Ty) (x : Value) (name : String) (need : Value → Prop) (h1 : Reaches structs T v p t x) (h2 : Needs t name need) (h3 : ¬ need x)
    (h4 : ∀ p' t' x' e', Reaches structs T v p' t' x' → Complains t' x' e' → p' = p ∧ t' = t ∧ x' = x) :
    ∃ e, deAt structs k T v = .err e ∧ (∀ y, PartOf y x → OccursIn y.display e.display) ∧
      ∀ y s z, PartOf y x → child y (.key s) = some z → OccursIn s e.display := by
  have hu : ∀ e', Complains t x e' → e' = .deserializationError ("Can't deserialize " ++ x.display ++ " to " ++ name) := by
    intro e' h
    cases h with
    | scalar hs => cases h2 <;> cases hs
    | i128 => cases h2
    | u128 => cases h2
    | shape hn _ => cases hn <;> cases h2 <;> rfl
    | tooShort => cases h2; exact absurd ⟨_, rfl⟩ h3
    | tooShortStruct => cases h2; exact absurd ⟨_, rfl⟩ h3
    | key hc => cases h2; obtain ⟨m, rfl, -⟩ := child_key_is_map hc; exact absurd ⟨_, rfl⟩ h3
    | missing => cases h2; exact absurd ⟨_, rfl⟩ h3
  refine ⟨_, C132_only structs hs hs' T hT hT' v hv k hk p t x _ h1 (.shape h2 h3) ?_, ?_⟩
  · intro p' t' x' e' h5 h6
    obtain ⟨rfl, rfl, rfl⟩ := h4 p' t' x' e' h5 h6
    exact hu e' h6
  · have hx : OccursIn x.display (ModelError.deserializationError ("Can't deserialize " ++ x.display ++ " to " ++ name)).display := occurs_cannot x name
    have hp : ∀ y x, PartOf y x → OccursIn y.display x.display := by
      intro y x h
      induction h with
      | here => exact OccursIn.refl _
      | step hc _ ih => exact OccursIn.trans ih (occurs_child hc)
    refine ⟨fun y hy => OccursIn.trans (hp y x hy) hx, fun y s z hy hz => OccursIn.trans ?_ (OccursIn.trans (hp y x hy) hx)⟩
    obtain ⟨m, rfl, hg⟩ := child_key_is_map hz
    rw [Value.display]
    exact OccursIn.right _ (OccursIn.left _ (OccursIn.trans (OccursIn.right _ (OccursIn.right _ (OccursIn.refl _))) (occurs_entries true (hmGet_mem hg))))

/-- **C132.** If everything has the right shape, errors show nothing of the settings. -/
theorem C132_quiet (structs : Nat → List (String × Ty)) (hs : ∀ n, WellFormed (.struct (structs n))) (T : Ty) (hT : WellFormed T) (v : Value)
    (hv : UniqueKeys v) (k : Nat) (e : ModelError) (h : deAt structs k T v = .err e)
    (hshape : ∀ p t x name need, Reaches structs T v p t x → Needs t name need → need x) :
    Quiet (fun name => ∃ p fs x t, Reaches structs T v p (.struct fs) x ∧ (name, t) ∈ fs) e := by
  obtain ⟨p, t, x, h1, h2⟩ := C132_origin structs hs T hT v hv k e h
  have sc : ∀ {t : Ty} {s : Scalar} {v : Value} {e : ModelError} {P : String → Prop}, scalarOf t = some s → v.tryInto s = .error e → Quiet P e := by
    intro t s v e P h1 h2
    rw [C31_error_exact s v e h2]
    refine .conversion ?_ ?_ ?_
    · cases v <;> cases s <;> simp [namedSource]
    · split
      · simp
      · cases t with
        | int t => cases t <;> first | (cases h1; done) | (cases h1; simp [Scalar.name, IntTy.name])
        | _ => first | (cases h1; done) | (cases h1; simp [Scalar.name])
    · cases v <;> cases s <;> simp [namedReason]
  cases h2 with
  | scalar h2 h3 => exact sc h2 h3
  | i128 => exact .i128
  | u128 => exact .u128
  | shape hn hx => exact absurd (hshape p t x _ _ h1 hn) hx
  | tooShort => exact .length _
  | tooShortStruct => exact .length _
  | @key kt _ _ _ _ _ hc hk =>
    cases kt with
    | bool => cases hk with | scalar h2 h3 => exact sc h2 h3 | shape hn => cases hn
    | int t => cases hk with | scalar h2 h3 => exact sc h2 h3 | shape hn => cases hn | i128 => exact .i128 | u128 => exact .u128
    | char => cases hk with | scalar h2 h3 => exact sc h2 h3 | shape hn => cases hn
    | string => cases hk with | scalar h2 h3 => exact sc h2 h3 | shape hn => cases hn
  | missing hf _ _ => exact .missing ⟨p, _, _, _, h1, hf⟩

/-! ## What is never shown -/

theorem loop_filter (fds : List FieldDec) : ∀ (m : Entries) (acc : List (String × Data)),
    deStructLoop fds acc m = deStructLoop fds acc (m.filter fun e => (fds.map FieldDec.name).contains e.1) := by
  intro m
  induction m with
  | nil => intro acc; rfl
  | cons en r ih =>
    intro acc
    obtain ⟨k, v⟩ := en
    rw [List.filter_cons]
    cases hf : fds.find? (fun fd => fd.name == k) with
    | none =>
      have hc : (fds.map FieldDec.name).contains k = false := by
        rw [Bool.eq_false_iff]
        intro h
        rw [List.contains_iff_mem, List.mem_map] at h
        obtain ⟨fd, h1, h2⟩ := h
        have := List.find?_eq_none.1 hf fd h1
        simp [h2] at this
      rw [deStructLoop, string_self, Outcome.bind_ok]
      simp only [hf, hc]
      rw [deIgnored_ok, Outcome.bind_ok, ih]
      rfl
    | some fd =>
      have hc : (fds.map FieldDec.name).contains k = true := by
        rw [List.contains_iff_mem, List.mem_map]
        exact ⟨fd, List.mem_of_find?_eq_some hf, by simpa using List.find?_some hf⟩
      simp only [hc, if_true]
      rw [deStructLoop, deStructLoop, string_self, Outcome.bind_ok, Outcome.bind_ok]
      simp only [hf]
      split
      · rfl
      · cases fd.dec v with
        | ok d => rw [Outcome.bind_ok, Outcome.bind_ok]; exact ih _
        | err e => rfl
        | panic => rfl

theorem loop_congr (fds : List FieldDec) {m n : Entries}
    (h : List.Forall₂ (fun e f => e.1 = f.1 ∧ ∀ fd ∈ fds, fd.name = e.1 → fd.dec e.2 = fd.dec f.2) m n) :
    ∀ acc, deStructLoop fds acc m = deStructLoop fds acc n := by
  induction h with
  | nil => intro acc; rfl
  | @cons e f m n h1 _ ih =>
    intro acc
    obtain ⟨k, v⟩ := e
    obtain ⟨k', w⟩ := f
    obtain ⟨hk, hd⟩ := h1
    simp only at hk hd
    subst hk
    rw [deStructLoop, deStructLoop, string_self, Outcome.bind_ok, Outcome.bind_ok]
    cases hf : fds.find? (fun fd => fd.name == k) with
    | none => simp only [deIgnored_ok, Outcome.bind_ok]; exact ih acc
    | some fd =>
      simp only
      rw [hd fd (List.mem_of_find?_eq_some hf) (by simpa using List.find?_some hf)]
      split
      · rfl
      · cases fd.dec w with
        | ok d => rw [Outcome.bind_ok, Outcome.bind_ok]; exact ih _
        | err e => rfl
        | panic => rfl

theorem vec_congr (dec : Decoder) {xs ys : List Value} (h : List.Forall₂ (fun x y => dec x = dec y) xs ys) :
    ∀ acc, deVecLoop dec acc xs = deVecLoop dec acc ys := by
  induction h with
  | nil => intro acc; rfl
  | @cons x y _ _ h1 _ ih =>
    intro acc
    rw [deVecLoop, deVecLoop, h1]
    cases dec y with
    | ok d => rw [Outcome.bind_ok, Outcome.bind_ok]; exact ih _
    | err e => rfl
    | panic => rfl

theorem mapLoop_congr (kt : KeyTy) (dec : Decoder) {m n : Entries} (h : List.Forall₂ (fun e f => e.1 = f.1 ∧ dec e.2 = dec f.2) m n) :
    ∀ acc, deMapLoop kt dec acc m = deMapLoop kt dec acc n := by
  induction h with
  | nil => intro acc; rfl
  | @cons e f _ _ h1 _ ih =>
    intro acc
    obtain ⟨k, v⟩ := e
    obtain ⟨k', w⟩ := f
    obtain ⟨hk, hd⟩ := h1
    simp only at hk hd
    subst hk
    rw [deMapLoop, deMapLoop, hd]
    cases deKey kt k with
    | ok key =>
      rw [Outcome.bind_ok, Outcome.bind_ok]
      cases dec w with
      | ok d => rw [Outcome.bind_ok, Outcome.bind_ok]; exact ih _
      | err e => rfl
      | panic => rfl
    | err e => rfl
    | panic => rfl

theorem tuple_congr : ∀ (decs : List Decoder) (xs ys : List Value) (i : Nat) (acc : List Data),
    (∀ (j : Nat), j < decs.length → (xs[j]? = none ↔ ys[j]? = none)) →
    (∀ (j : Nat) (dec : Decoder) x y, decs[j]? = some dec → xs[j]? = some x → ys[j]? = some y → dec x = dec y) →
    deTupleLoop i acc decs xs = deTupleLoop i acc decs ys := by
  intro decs
  induction decs with
  | nil => intro xs ys i acc _ _; rfl
  | cons dec ds ih =>
    intro xs ys i acc h1 h2
    have h0 := h1 0 (by simp)
    cases xs with
    | nil =>
      cases ys with
      | nil => rfl
      | cons y ys => simp at h0
    | cons x xs =>
      cases ys with
      | nil => simp at h0
      | cons y ys =>
        rw [deTupleLoop, deTupleLoop, h2 0 dec x y rfl rfl rfl]
        cases dec y with
        | ok d =>
          rw [Outcome.bind_ok, Outcome.bind_ok]
          refine ih xs ys _ _ (fun j hj => ?_) (fun j dec x y a1 a2 a3 => h2 (j + 1) dec x y a1 a2 a3)
          simpa using h1 (j + 1) (by simpa using hj)
        | err e => rfl
        | panic => rfl

theorem named_pairs {fs : List (String × Ty)} {R : Ty → Value → Value → Prop} {m n : Entries}
    (hk : (m.map Prod.fst).filter (fs.map Prod.fst).contains = (n.map Prod.fst).filter (fs.map Prod.fst).contains)
    (h : ∀ name t e f, (name, t) ∈ fs → (name, e) ∈ m → (name, f) ∈ n → R t e f) :
    List.Forall₂ (fun e f => e.1 = f.1 ∧ ∀ t, (e.1, t) ∈ fs → R t e.2 f.2)
      (m.filter fun e => (fs.map Prod.fst).contains e.1) (n.filter fun e => (fs.map Prod.fst).contains e.1) := by
  rw [List.filter_map, List.filter_map] at hk
  have hm : m.filter (fun e => (fs.map Prod.fst).contains e.1) = m.filter ((fs.map Prod.fst).contains ∘ Prod.fst) := rfl
  have hn : n.filter (fun e => (fs.map Prod.fst).contains e.1) = n.filter ((fs.map Prod.fst).contains ∘ Prod.fst) := rfl
  rw [hm, hn]
  refine forall2_of_index (by simpa using congrArg List.length hk) fun i e f he hf => ?_
  have e1 : e.1 = f.1 := by
    have := congrArg (fun l => l[i]?) hk
    simp only [List.getElem?_map, he, hf, Option.map_some, Option.some.injEq] at this
    exact this
  refine ⟨e1, fun t ht => h e.1 t e.2 f.2 ht ?_ ?_⟩
  · exact List.mem_of_mem_filter (List.mem_of_getElem? he)
  · rw [e1]; exact List.mem_of_mem_filter (List.mem_of_getElem? hf)

/-- **C132.** What the type has no name for is never shown, and never makes a difference: the outcome (the value, the error with its whole text, the panic) is
the same whatever is in there. -/
theorem C132_hidden (structs : Nat → List (String × Ty)) (T : Ty) (v w : Value) (h : HiddenOnly structs T v w) (k : Nat) :
    deAt structs k T v = deAt structs k T w := by
  simp only [deAt]
  induction h generalizing k with
  | refl => rfl
  | @option t v w hv hw _ ih =>
    have ex : ∀ v : Value, v ≠ .none → de (refsAt structs k) (.option t) v = (de (refsAt structs k) t v >>= fun d => Outcome.ok (Data.some d)) := by
      intro v hv; cases v <;> first | exact absurd rfl hv | simp only [de]
    rw [ex v hv, ex w hw, ih]
  | newtype _ ih => rw [de, de, ih]
  | seq hl _ ih =>
    rw [de, de]
    rw [vec_congr _ (forall2_of_index hl fun i x y hx hy => ih i x y hx hy k)]
  | tuple hl _ ih =>
    rw [de, de, tuple_congr]
    · simpa only [decoders_length] using hl
    · intro j dec x y h1 h2 h3
      rw [decoders_get] at h1
      obtain ⟨t, ht, rfl⟩ := Option.map_eq_some_iff.1 h1
      exact ih j t x y ht h2 h3 k
  | tupleStruct hl _ ih =>
    rw [de, de, tuple_congr]
    · simpa only [decoders_length] using hl
    · intro j dec x y h1 h2 h3
      rw [decoders_get] at h1
      obtain ⟨t, ht, rfl⟩ := Option.map_eq_some_iff.1 h1
      exact ih j t x y ht h2 h3 k
  | map hk _ ih =>
    rw [de, de]
    rw [mapLoop_congr _ _ (forall2_of_index (by simpa using congrArg List.length hk) fun i e f he hf => ⟨?_, ih i e f he hf k⟩)]
    have := congrArg (fun l => l[i]?) hk
    simpa only [List.getElem?_map, he, hf, Option.map_some, Option.some.injEq] using this
  | @struct fs m n hk _ ih =>
    have names : (fieldDecoders (refsAt structs k) fs).map FieldDec.name = fs.map Prod.fst := by
      rw [fieldDecoders_eq, List.map_map]; rfl
    rw [de, de]
    simp only [deStruct]
    rw [loop_filter _ m, loop_filter _ n, names]
    rw [loop_congr]
    refine (named_pairs (R := fun t e f => de (refsAt structs k) t e = de (refsAt structs k) t f) hk fun name t e f h1 h2 h3 => ih name t e f h1 h2 h3 k).imp ?_
    rintro e f ⟨e1, h⟩
    refine ⟨e1, fun fd hfd hn => ?_⟩
    rw [fieldDecoders_eq] at hfd
    obtain ⟨g, hg, rfl⟩ := List.mem_map.1 hfd
    have hn' : g.1 = e.1 := hn
    exact h g.2 (by rw [← hn']; exact hg)
  | ref _ ih =>
    rw [de, de]
    cases k with
    | zero => rfl
    | succ k => exact ih k

/-- **C132.** The error does not tell which setting is wrong: with two settings of the same type, one of them refused, the error is the same for both. -/
theorem C132_anonymous (structs : Nat → List (String × Ty)) (k : Nat) (t : Ty) (a b : String) (hab : a ≠ b) (good bad : Value) (d : Data) (e : ModelError)
    (hg : deAt structs k t good = .ok d) (hb : deAt structs k t bad = .err e) :
    deAt structs k (.struct [(a, t), (b, t)]) (.map [(a, bad), (b, good)]) = .err e ∧
    deAt structs k (.struct [(a, t), (b, t)]) (.map [(a, good), (b, bad)]) = .err e := by
  simp only [deAt] at *
  have hab' : (a == b) = false := by simpa using hab
  have hba' : (b == a) = false := by simpa using hab.symm
  have step : ∀ (fds : List FieldDec) (acc : List (String × Data)) (j : String) (v : Value) (r : Entries) (fd : FieldDec),
      fds.find? (fun fd => fd.name == j) = some fd → hmGet acc j = none →
      deStructLoop fds acc ((j, v) :: r) = (fd.dec v >>= fun d => deStructLoop fds (hmInsert acc j d) r) := by
    intro fds acc j v r fd h1 h2
    rw [deStructLoop, string_self, Outcome.bind_ok]
    simp only [h1, h2, Option.isSome_none, Bool.false_eq_true, if_false]
  constructor
  · rw [de, fieldDecoders_eq]
    simp only [deStruct, List.map]
    rw [step _ _ _ _ _ ⟨a, de (refsAt structs k) t, missingField a t⟩ (by simp [List.find?]) rfl]
    simp only [hb]
    rfl
  · rw [de, fieldDecoders_eq]
    simp only [deStruct, List.map]
    rw [step _ _ _ _ _ ⟨a, de (refsAt structs k) t, missingField a t⟩ (by simp [List.find?]) rfl]
    simp only [hg, Outcome.bind_ok]
    rw [step _ _ _ _ _ ⟨b, de (refsAt structs k) t, missingField b t⟩ (by simp [List.find?, hab']) (by simp [hmInsert, hmGet, hab])]
    simp only [hb]
    rfl

/-! ## Which layer -/

theorem reaches_view {structs : Nat → List (String × Ty)} {T : Ty} {v : Value} {p : Path} {u : Ty} {x : Value} (hr : Reaches structs T v p u x) :
    view v p = some (head x) := by
  induction hr with
  | here => rfl
  | option _ _ ih => exact ih
  | newtype _ ih => exact ih
  | seq hc _ ih => simpa only [view, hc, Option.bind_some] using ih
  | tuple _ hc _ ih => simpa only [view, hc, Option.bind_some] using ih
  | tupleStruct _ hc _ ih => simpa only [view, hc, Option.bind_some] using ih
  | map hc _ ih => simpa only [view, hc, Option.bind_some] using ih
  | struct _ hc _ ih => simpa only [view, hc, Option.bind_some] using ih
  | ref _ ih => exact ih

/-- **C132.** Every error of reading a configuration has a culprit: either the configuration as a whole lacks a field, or what complains is what the last layer
that speaks about its path has there. -/
theorem C132_layer (b : Build) (fm : Formats) (calls : List RegCall) (w : World) (skip : Bool) (v : Value)
    (h : (register b fm calls).buildValue w skip = .ok v) (hp : ∀ e ∈ firsts (offers b fm calls), Proper e.2)
    (structs : Nat → List (String × Ty)) (hs : ∀ n, WellFormed (.struct (structs n))) (T : Ty) (hT : WellFormed T) (k : Nat) (e : ModelError)
    (he : deAt structs k T v = .err e) :
    ∃ p t x, Reaches structs T v p t x ∧ Complains t x e ∧
      (p = [] ∨ ∃ before l after y, firsts (offers b fm calls) = before ++ l :: after ∧ l.2.readValue w = .ok y ∧ view y p = some (head x) ∧
        ∀ a ∈ after, ¬ Speaks w a.2 p) := by
  obtain ⟨p, t, x, h1, h2⟩ := C132_origin structs hs T hT v ((C08_map b fm calls w skip v h).2 hp) k e he
  refine ⟨p, t, x, h1, h2, ?_⟩
  have hv := reaches_view h1
  rcases C07_cases w (firsts (offers b fm calls)) p with hn | ⟨before, l, after, y, a1, a2, a3, a4, a5⟩
  · left
    cases p with
    | nil => rfl
    | cons s p =>
      have := C07_nobody_speaks b fm calls w skip v h hp _ hn
      rw [hv] at this
      simp at this
  · right
    exact ⟨before, l, after, y, a1, a2, by rw [← C07_last_speaker b fm calls w skip v h hp p before l after y a1 a2 a3 a4 a5]; exact hv, a5⟩

/-! ## Structs with attributes -/

theorem attrLoop_err (deny : Bool) {fs : List AttrField} {e : ModelError} (m : Entries) : ∀ (seen : Entries) (acc : List (String × Data)),
    ((seen ++ m).map Prod.fst).Nodup → (∀ f ∈ fs, (hmGet acc f.name).isSome = true → ∃ en ∈ seen, ∃ g ∈ fs, g.name = f.name ∧ en.1 ∈ readFrom g) →
    deAttrLoop deny fs acc m = .err e →
    (∃ f ∈ fs, ∃ en ∈ m, en.1 ∈ readFrom f ∧ f.dec en.2 = .err e) ∨
    (∃ f ∈ fs, ∃ g ∈ fs, g.name = f.name ∧ ∃ a ∈ seen ++ m, ∃ c ∈ seen ++ m, a.1 ≠ c.1 ∧ a.1 ∈ readFrom g ∧ c.1 ∈ readFrom f ∧
      e = .deserializationError ("duplicate field `" ++ f.name ++ "`")) ∨
    (deny = true ∧ ∃ en ∈ m, (∀ f ∈ fs, en.1 ∉ readFrom f) ∧ e = .deserializationError ("unknown field `" ++ en.1 ++ "`")) := by
  induction m with
  | nil => intro seen acc _ _ h; cases h
  | cons en r ih =>
    intro seen acc hn ha h
    obtain ⟨k, v⟩ := en
    rw [deAttrLoop, string_self, Outcome.bind_ok] at h
    have hn' : (((seen ++ [(k, v)]) ++ r).map Prod.fst).Nodup := by simpa using hn
    have up : ((∃ f ∈ fs, ∃ en ∈ r, en.1 ∈ readFrom f ∧ f.dec en.2 = .err e) ∨
        (∃ f ∈ fs, ∃ g ∈ fs, g.name = f.name ∧ ∃ a ∈ (seen ++ [(k, v)]) ++ r, ∃ c ∈ (seen ++ [(k, v)]) ++ r, a.1 ≠ c.1 ∧ a.1 ∈ readFrom g ∧ c.1 ∈ readFrom f ∧
          e = .deserializationError ("duplicate field `" ++ f.name ++ "`")) ∨
        (deny = true ∧ ∃ en ∈ r, (∀ f ∈ fs, en.1 ∉ readFrom f) ∧ e = .deserializationError ("unknown field `" ++ en.1 ++ "`"))) →
        (∃ f ∈ fs, ∃ en ∈ (k, v) :: r, en.1 ∈ readFrom f ∧ f.dec en.2 = .err e) ∨
        (∃ f ∈ fs, ∃ g ∈ fs, g.name = f.name ∧ ∃ a ∈ seen ++ (k, v) :: r, ∃ c ∈ seen ++ (k, v) :: r, a.1 ≠ c.1 ∧ a.1 ∈ readFrom g ∧ c.1 ∈ readFrom f ∧
          e = .deserializationError ("duplicate field `" ++ f.name ++ "`")) ∨
        (deny = true ∧ ∃ en ∈ (k, v) :: r, (∀ f ∈ fs, en.1 ∉ readFrom f) ∧ e = .deserializationError ("unknown field `" ++ en.1 ++ "`")) := by
      rw [List.append_assoc]
      rintro (⟨f, hf, en, he, hr⟩ | h | ⟨hd, en, he, hr⟩)
      · exact .inl ⟨f, hf, en, List.mem_cons_of_mem _ he, hr⟩
      · exact .inr (.inl h)
      · exact .inr (.inr ⟨hd, en, List.mem_cons_of_mem _ he, hr⟩)
    cases hf : fs.find? (fun f => f.keys.contains k) with
    | none =>
      simp only [hf] at h
      cases deny with
      | true =>
        simp only [if_true] at h
        cases h
        exact .inr (.inr ⟨rfl, _, List.mem_cons_self, owner_none hf, rfl⟩)
      | false =>
        simp only [Bool.false_eq_true, if_false] at h
        rw [deIgnored_ok, Outcome.bind_ok] at h
        refine up (ih _ acc hn' (fun f hfm hs => ?_) h)
        obtain ⟨en, he, hr⟩ := ha f hfm hs
        exact ⟨en, List.mem_append_left _ he, hr⟩
    | some f =>
      simp only [hf] at h
      obtain ⟨hfm, hk⟩ := owner_find hf
      split at h
      next hs =>
        cases h
        obtain ⟨a, hae, g, hg, hgn, hak⟩ := ha f hfm hs
        refine .inr (.inl ⟨f, hfm, g, hg, hgn, a, List.mem_append_left _ hae, (k, v), by simp, ?_, hak, hk, rfl⟩)
        intro hak'
        rw [List.map_append, List.nodup_append] at hn
        exact hn.2.2 a.1 (List.mem_map.2 ⟨a, hae, rfl⟩) k (by simp) hak'
      next hs =>
        rw [bind_eq_err] at h
        rcases h with h | ⟨d, -, h⟩
        · exact .inl ⟨f, hfm, _, List.mem_cons_self, hk, h⟩
        · refine up (ih _ _ hn' (fun f' hfm' hs' => ?_) h)
          rw [hmGet_insert] at hs'
          split at hs'
          next hnm => exact ⟨(k, v), by simp, f, hfm, hnm, hk⟩
          next =>
            obtain ⟨en, he, hr⟩ := ha f' hfm' hs'
            exact ⟨en, List.mem_append_left _ he, hr⟩

theorem attrFinish_err {acc : List (String × Data)} {e : ModelError} : ∀ (fs : List AttrField), deAttrFinish acc fs = .err e →
    ∃ f ∈ fs, hmGet acc f.name = none ∧ f.missing = .err e := by
  intro fs
  induction fs with
  | nil => intro h; cases h
  | cons f r ih =>
    intro h
    rw [deAttrFinish, bind_eq_err] at h
    rcases h with h | ⟨d, -, h⟩
    · cases hg : hmGet acc f.name with
      | none => rw [hg] at h; exact ⟨f, List.mem_cons_self, hg, h⟩
      | some d => rw [hg] at h; cases h
    · rw [bind_eq_err] at h
      rcases h with h | ⟨d, -, h⟩
      · obtain ⟨x, h1, h2⟩ := ih h
        exact ⟨x, List.mem_cons_of_mem _ h1, h2⟩
      · cases h

/-- **C132**, with attributes: every error of a struct with attributes is one of its fields', or that a field is there twice (under two of its names), or a
denied key, or an absent field; and only these make it fail, unless a field's own type panics. -/
theorem C132_attrs (deny : Bool) (fs : List AttrField) (hd : AttrsDistinct fs) (v : Value) (hv : UniqueKeys v) (hm : v.isMap = true) :
    (∀ e, deAttrs deny fs v = .err e → Refuses deny fs v e) ∧
    ((∀ f ∈ fs, (∀ x, f.dec x ≠ .panic) ∧ f.missing ≠ .panic) → ((∃ e, deAttrs deny fs v = .err e) ↔ ∃ e, Refuses deny fs v e)) := by
  cases v with
  | map m =>
    have hn := (uniqueKeys_map.1 hv).1
    have h1 : ∀ e, deAttrs deny fs (.map m) = .err e → Refuses deny fs (.map m) e := by
      intro e h
      simp only [deAttrs] at h
      rw [bind_eq_err] at h
      rcases h with h | ⟨acc, ha, h⟩
      · rcases attrLoop_err deny m [] [] (by simpa using hn) (by intro f _ h; cases h) h with ⟨f, hf, en, he, hk, hr⟩ |
          ⟨f, hf, g, hg, hgn, a, hae, c, hce, hne, hak, hck, hr⟩ | ⟨hden, en, he, hk, hr⟩
        · exact .entry f hf en.1 hk en.2 ((child_mem hn).2 he) hr
        · obtain rfl := name_eq hd.1 hg hf hgn
          refine .twice g hf a.1 c.1 hak hck hne ?_ ?_ hr
          · rw [(child_mem hn).2 (show (a.1, a.2) ∈ m from hae)]; simp
          · rw [(child_mem hn).2 (show (c.1, c.2) ∈ m from hce)]; simp
        · exact .unknown hden en.1 hk (by rw [(child_mem hn).2 (show (en.1, en.2) ∈ m from he)]; simp) hr
      · rw [bind_eq_err] at h
        rcases h with h | ⟨d, -, h⟩
        · obtain ⟨f, hf, hg, he⟩ := attrFinish_err _ h
          obtain ⟨a1, -, -⟩ := attrLoop_facts deny hd m [] acc ha
          refine .absent f hf (fun k hk => ?_) he
          cases hc : child (.map m) (.key k) with
          | none => rfl
          | some x =>
            obtain ⟨-, ⟨d, -, hd'⟩, -⟩ := a1 f hf (k, x) ((child_mem hn).1 hc) hk
            rw [hg] at hd'; cases hd'
        · cases h
    refine ⟨h1, fun hcalm => ⟨fun ⟨e, h⟩ => ⟨e, h1 e h⟩, ?_⟩⟩
    rintro ⟨e, hr⟩
    cases h : deAttrs deny fs (.map m) with
    | err e => exact ⟨e, rfl⟩
    | panic => exact absurd h ((C90_nonmap_no_panic deny fs (.map m)).2 hcalm)
    | ok d =>
      exfalso
      obtain ⟨h2, ds, -, h3⟩ := (C90_exact deny fs hd (.map m) hv rfl d).1 h
      cases hr with
      | entry f hf k hk x hx he =>
        obtain ⟨nd, -, -, hg⟩ := forall2_left h3 f hf
        cases hg with
        | read k' x' hk' hx' only hd' =>
          obtain rfl := only k hk (by rw [hx]; simp)
          rw [hx] at hx'; cases hx'
          rw [he] at hd'; cases hd'
        | absent none hd' => rw [none k hk] at hx; cases hx
      | twice f hf k k' hk hk' hne h5 h6 he =>
        obtain ⟨nd, -, -, hg⟩ := forall2_left h3 f hf
        cases hg with
        | read k'' x' hk'' hx' only hd' => exact hne ((only k hk h5).trans (only k' hk' h6).symm)
        | absent none hd' => exact h5 (none k hk)
      | unknown hden k hk h5 he =>
        cases hc : child (.map m) (.key k) with
        | none => exact h5 hc
        | some x =>
          obtain ⟨f, hf, hkf⟩ := h2 hden k x hc
          exact hk f hf hkf
      | absent f hf h5 he =>
        obtain ⟨nd, -, -, hg⟩ := forall2_left h3 f hf
        cases hg with
        | read k'' x' hk'' hx' only hd' => rw [h5 k'' hk''] at hx'; cases hx'
        | absent none hd' => rw [he] at hd'; cases hd'
  | _ => cases hm

/-- `port` and its other name `Port` together: refused, by name. -/
example : Refuses false exAttrs (.map [("port", .integer ⟨1, by decide⟩), ("Port", .integer ⟨2, by decide⟩)]) (.deserializationError "duplicate field `port`") :=
  (C132_attrs false exAttrs exAttrs_distinct _ (by simp [UniqueKeys, UniqueKeysMap, UniqueKeysEntry]) rfl).1 _ (by rfl)

/-- An unknown key where they are denied. -/
example : ∃ e, deAttrs true exAttrs (.map [("cache", .boolean true)]) = .err e :=
  ((C132_attrs true exAttrs exAttrs_distinct (.map [("cache", .boolean true)]) (by simp [UniqueKeys, UniqueKeysMap, UniqueKeysEntry]) rfl).2 (by
    intro f hf
    simp only [exAttrs, List.mem_cons, List.not_mem_nil, or_false] at hf
    have calm : ∀ x : Value, deAt (fun _ => []) 1 (.int .u16) x ≠ .panic ∧ deAt (fun _ => []) 1 .bool x ≠ .panic ∧ deAt (fun _ => []) 1 .string x ≠ .panic := by
      intro x
      simp only [deAt, de, ne_eq, bind_eq_panic]
      refine ⟨?_, ?_, ?_⟩ <;> rintro (h | ⟨_, _, h⟩) <;> first | exact deInt_noPanic _ _ h | exact ofExcept_panic h | cases h
    have calmO : ∀ x : Value, deAt (fun _ => []) 1 (.option .string) x ≠ .panic := by
      intro x h
      by_cases hx : x = .none
      · subst hx; cases h
      · have h' : (deAt (fun _ => []) 1 .string x >>= fun d => Outcome.ok (Data.some d)) = .panic := by
          cases x <;> first | exact absurd rfl hx | exact h
        rw [bind_eq_panic] at h'
        rcases h' with h' | ⟨_, _, h'⟩
        · exact (calm x).2.2 h'
        · cases h'
    rcases hf with rfl | rfl | rfl
    · exact ⟨fun x => (calm x).1, by simp⟩
    · exact ⟨fun x => (calm x).2.1, by simp⟩
    · exact ⟨calmO, by simp [missingField]⟩)).2
    ⟨_, .unknown rfl "cache" (by decide) (by simp [child, List.find?]) rfl⟩

/-! ## Examples -/

/-- The server section is a list by mistake, with a password in it. -/
def exSecret : Value := .map [("color", .string "red"), ("server", .array [.map [("password", .string "hunter2")]]), ("host", .string "h")]

/-- The port is a password by mistake. -/
def exWrongPort : Value := .map [("server", .map [("port", .string "hunter2")]), ("host", .string "h")]

theorem exSecret_unique : UniqueKeys exSecret := by simp [exSecret, UniqueKeys, UniqueKeysMap, UniqueKeysEntry, UniqueKeysList]
theorem exWrongPort_unique : UniqueKeys exWrongPort := by simp [exWrongPort, UniqueKeys, UniqueKeysMap, UniqueKeysEntry]

theorem exFoot_quietTypes : NoEnumNoBytes (.struct exFoot) := by
  refine .struct fun f hf => ?_
  simp only [exFoot, List.mem_cons, List.not_mem_nil, or_false] at hf
  rcases hf with rfl | rfl
  · exact .string
  · refine .struct fun f hf => ?_
    simp only [List.mem_cons, List.not_mem_nil, or_false] at hf
    rcases hf with rfl | rfl
    · exact .int _
    · exact .option .string

/-- What is reached in the first one. -/
theorem exSecret_reaches {p : Path} {t : Ty} {x : Value} (h : Reaches (fun _ => []) (.struct exFoot) exSecret p t x) :
    (p = [] ∧ t = .struct exFoot ∧ x = exSecret) ∨ (p = [.key "host"] ∧ t = .string ∧ x = .string "h") ∨
    (p = [.key "server"] ∧ t = .struct [("port", .int .u16), ("name", .option .string)] ∧ x = .array [.map [("password", .string "hunter2")]]) := by
  cases h with
  | here => exact .inl ⟨rfl, rfl, rfl⟩
  | struct hf hc hr =>
    simp only [exFoot, List.mem_cons, List.not_mem_nil, or_false, Prod.mk.injEq] at hf
    rcases hf with ⟨rfl, rfl⟩ | ⟨rfl, rfl⟩
    · cases hc
      cases hr
      exact .inr (.inl ⟨rfl, rfl, rfl⟩)
    · cases hc
      cases hr with
      | here => exact .inr (.inr ⟨rfl, rfl, rfl⟩)
      | struct _ hc _ => cases hc

theorem exSecret_only {p : Path} {t : Ty} {x : Value} {e : ModelError} (h : Reaches (fun _ => []) (.struct exFoot) exSecret p t x) (hc : Complains t x e) :
    p = [.key "server"] ∧ t = .struct [("port", .int .u16), ("name", .option .string)] ∧ x = .array [.map [("password", .string "hunter2")]] := by
  rcases exSecret_reaches h with ⟨rfl, rfl, rfl⟩ | ⟨rfl, rfl, rfl⟩ | h
  · exfalso
    cases hc with
    | scalar hs => cases hs
    | shape hn hx => cases hn; exact hx ⟨_, rfl⟩
    | missing hf ho hm =>
      simp only [exFoot, List.mem_cons, List.not_mem_nil, or_false, Prod.mk.injEq] at hf
      rcases hf with ⟨rfl, rfl⟩ | ⟨rfl, rfl⟩ <;> cases hm
  · exfalso
    cases hc with
    | scalar hs he => cases hs; cases he
    | shape hn => cases hn
  · exact h

/-- The password is in the message. -/
example : ∃ e, deAt (fun _ => []) 9 (.struct exFoot) exSecret = .err e ∧ OccursIn "hunter2" e.display ∧ OccursIn "password" e.display := by
  obtain ⟨k, hk⟩ := C38_depth_exists exSecret exSecret_unique
  have hr : Reaches (fun _ => []) (.struct exFoot) exSecret [.key "server"] (.struct [("port", .int .u16), ("name", .option .string)])
      (.array [.map [("password", .string "hunter2")]]) := .struct (name := "server") (by simp [exFoot]) rfl (.here _ _)
  obtain ⟨e, h1, h2, h3⟩ := C132_shown (fun _ => []) exFoot_empty (fun _ => .struct (by simp)) (.struct exFoot) exFoot_wf.1 exFoot_quietTypes exSecret exSecret_unique k hk
    _ _ _ _ _ hr (.struct _) (by rintro ⟨m, hm⟩; cases hm) (fun p' t' x' e' a b => exSecret_only a b)
  have he : deAt (fun _ => []) 9 (.struct exFoot) exSecret = deAt (fun _ => []) k (.struct exFoot) exSecret := by rfl
  exact ⟨e, he.trans h1, h2 (.string "hunter2") (.step (s := .idx 0) rfl (.step (s := .key "password") rfl (.here _))),
    h3 _ "password" (.string "hunter2") (.step (s := .idx 0) rfl (.here _)) rfl⟩

/-- The whole text. -/
example : deAt (fun _ => []) 9 (.struct exFoot) exSecret = .err (.deserializationError "Can't deserialize [{password: hunter2}] to Map") := by rfl

example : ∃ p t x, Reaches (fun _ => []) (.struct exFoot) exSecret p t x ∧
    Complains t x (.deserializationError "Can't deserialize [{password: hunter2}] to Map") :=
  C132_origin (fun _ => []) exFoot_empty _ exFoot_wf.1 exSecret exSecret_unique 9 _ (by rfl)

example : ∃ e, deAt (fun _ => []) 9 (.struct exFoot) exSecret = .err e :=
  ⟨_, by rfl⟩

theorem exSecret_depth : DepthBelow exSecret 9 := by
  intro p hp
  by_contra hl
  match p, hl with
  | s1 :: s2 :: s3 :: s4 :: q, _ =>
    apply hp
    simp only [view]
    cases h1 : child exSecret s1 with
    | none => rfl
    | some x1 =>
      have e1 : x1 = .string "red" ∨ x1 = .string "h" ∨ x1 = .array [.map [("password", .string "hunter2")]] := by
        obtain _ | k := s1
        all_goals first | (cases h1; done) | skip
        rw [exSecret, child_key_map] at h1
        have := hmGet_mem h1
        simp only [List.mem_cons, List.not_mem_nil, or_false, Prod.mk.injEq] at this
        rcases this with ⟨-, h⟩ | ⟨-, h⟩ | ⟨-, h⟩ <;> simp [h]
      rcases e1 with rfl | rfl | rfl
      · cases s2 <;> rfl
      · cases s2 <;> rfl
      · cases s2 with
        | key => rfl
        | idx i =>
          rcases i with _ | i
          · cases s3 with
            | idx => rfl
            | key j =>
              simp only [Option.bind_some, child, List.getElem?_cons_zero]
              by_cases hj : j = "password"
              · subst hj; cases s4 <;> rfl
              · have : ("password" == j) = false := by simpa using fun h => hj h.symm
                simp [List.find?, this]
          · rfl
  | [], hl => simp at hl
  | [_], hl => simp at hl
  | [_, _], hl => simp at hl
  | [_, _, _], hl => simp at hl

example : ∃ e, deAt (fun _ => []) 9 (.struct exFoot) exSecret = .err e :=
  (C132_exact (fun _ => []) exFoot_empty (fun _ => .struct (by simp)) (.struct exFoot) exFoot_wf.1 exFoot_quietTypes exSecret exSecret_unique 9 exSecret_depth).2
    ⟨[.key "server"], _, _, _, .struct (name := "server") (t := .struct [("port", .int .u16), ("name", .option .string)]) (by simp [exFoot]) rfl (.here _ _),
      .shape (.struct _) (by rintro ⟨m, hm⟩; cases hm)⟩

example : deAt (fun _ => []) 9 (.struct exFoot) exSecret = .err (.deserializationError ("Can't deserialize " ++ "[{password: hunter2}]" ++ " to " ++ "Map")) :=
  C132_only (fun _ => []) exFoot_empty (fun _ => .struct (by simp)) (.struct exFoot) exFoot_wf.1 exFoot_quietTypes exSecret exSecret_unique 9 exSecret_depth
    [.key "server"] (.struct [("port", .int .u16), ("name", .option .string)]) (.array [.map [("password", .string "hunter2")]]) _
    (.struct (name := "server") (by simp [exFoot]) rfl (.here _ _)) (.shape (.struct _) (by rintro ⟨m, hm⟩; cases hm))
    (fun p t x e h1 h2 => by
      obtain ⟨rfl, rfl, rfl⟩ := exSecret_only h1 h2
      cases h2 with
      | scalar hs => cases hs
      | shape hn _ => cases hn; rfl)

/-- A password in the place of the port is not shown. -/
example : Quiet (fun name => ∃ p fs x t, Reaches (fun _ => []) (.struct exFoot) exWrongPort p (.struct fs) x ∧ (name, t) ∈ fs)
    (.conversionError "String" "u16" "can't parse string") := by
  refine C132_quiet (fun _ => []) exFoot_empty (.struct exFoot) exFoot_wf.1 exWrongPort exWrongPort_unique 9 _ (by rfl) ?_
  intro p t x name need h hn
  cases h with
  | here => cases hn; exact ⟨_, rfl⟩
  | struct hf hc hr =>
    simp only [exFoot, List.mem_cons, List.not_mem_nil, or_false, Prod.mk.injEq] at hf
    rcases hf with ⟨rfl, rfl⟩ | ⟨rfl, rfl⟩
    · cases hr; cases hn
    · cases hc
      cases hr with
      | here => cases hn; exact ⟨_, rfl⟩
      | struct hf hc hr =>
        simp only [List.mem_cons, List.not_mem_nil, or_false, Prod.mk.injEq] at hf
        rcases hf with ⟨rfl, rfl⟩ | ⟨rfl, rfl⟩
        · cases hr; cases hn
        · cases hc

example (e e' : ModelError) (h : Complains (.int .u16) (.string "hunter2") e) (h' : Complains (.int .u16) (.string "70000") e') : e = e' :=
  C132_scalar (.int .u16) (.int .u16) rfl (.string "hunter2") (.string "70000") trivial e e' h h'

example : Complains (.int .u16) (.string "hunter2") (.conversionError "String" "u16" "can't parse string") := .scalar (s := .int .u16) rfl (by rfl)

/-- What the program does not know is not shown: the colour is not a setting of the program, nor is the token of the server. -/
example : deAt (fun _ => []) 9 (.struct exFoot) (.map [("color", .string "red"), ("server", .map [("token", .string "hunter2"), ("port", .string "x")]), ("host", .string "h")]) =
    deAt (fun _ => []) 9 (.struct exFoot) (.map [("server", .map [("port", .string "x")]), ("pass", .array []), ("host", .string "h")]) := by
  refine C132_hidden (fun _ => []) _ _ _ (.struct (by decide) fun name t e f h1 h2 h3 => ?_) 9
  simp only [exFoot, List.mem_cons, List.not_mem_nil, or_false, Prod.mk.injEq] at h1 h2 h3
  rcases h1 with ⟨rfl, rfl⟩ | ⟨rfl, rfl⟩
  · simp at h2 h3; subst h2; subst h3; exact .refl _ _
  · simp at h2 h3
    subst h2; subst h3
    refine .struct (by decide) fun name t e f h1 h2 h3 => ?_
    simp only [List.mem_cons, List.not_mem_nil, or_false, Prod.mk.injEq] at h1 h2 h3
    rcases h1 with ⟨rfl, rfl⟩ | ⟨rfl, rfl⟩
    · simp at h2 h3; subst h2; subst h3; exact .refl _ _
    · simp at h2

/-- Which of the two ports is wrong, the error does not say. -/
example : deAt (fun _ => []) 9 (.struct [("http", .int .u16), ("https", .int .u16)]) (.map [("http", .string "x"), ("https", .string "443")]) =
    .err (.conversionError "String" "u16" "can't parse string") ∧
    deAt (fun _ => []) 9 (.struct [("http", .int .u16), ("https", .int .u16)]) (.map [("http", .string "443"), ("https", .string "x")]) =
    .err (.conversionError "String" "u16" "can't parse string") :=
  C132_anonymous (fun _ => []) 9 (.int .u16) "http" "https" (by decide) (.string "443") (.string "x") (.int .u16 ⟨443, by decide⟩) _ (by rfl) (by rfl)

/-- The layer that is to blame. -/
example : ∃ p t x, Reaches (fun _ => []) (.struct exFoot) (.map [("host", .string "h"), ("server", .array []), ("k", .string "w")]) p t x ∧
    Complains t x (.deserializationError "Can't deserialize [] to Map") ∧
    (p = [] ∨ ∃ before l after y, firsts (offers exB1 exFormats
        [.memory "default" exFootA, .memory "user" (.map [("server", .array [])]), .environment "env" "APP_"]) = before ++ l :: after ∧
      l.2.readValue exDisk = .ok y ∧ view y p = some (head x) ∧ ∀ a ∈ after, ¬ Speaks exDisk a.2 p) := by
  refine C132_layer exB1 exFormats [.memory "default" exFootA, .memory "user" (.map [("server", .array [])]), .environment "env" "APP_"] exDisk false _ (by rfl) ?_
    (fun _ => []) exFoot_empty (.struct exFoot) exFoot_wf.1 9 _ (by rfl)
  intro e he
  have he' := mem_firsts he
  obtain ⟨c, hc, ho⟩ := List.mem_filterMap.1 he'
  refine C08_builtin_proper exB1 exFormats c e ?_ ?_ ho
  · simp only [List.mem_cons, List.not_mem_nil, or_false] at hc
    rcases hc with rfl | rfl | rfl <;> trivial
  · intro n x hx
    simp only [List.mem_cons, List.not_mem_nil, or_false] at hc
    rcases hc with rfl | rfl | rfl <;> cases hx
    · simp [exFootA, UniqueKeys, UniqueKeysMap, UniqueKeysEntry]
    · simp [UniqueKeys, UniqueKeysMap, UniqueKeysEntry, UniqueKeysList]

end Verif.Props
