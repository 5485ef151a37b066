import Verif.Spec.Evolution
import Verif.Props.TypedLayers
import Verif.Props.Toml
/-!
# C117: stored settings stay readable when the type of the settings changes
-/
namespace Verif.Props
open Spec

/-! ## Integers -/

theorem wide_same {t t' : IntTy} (ht : Upto64 t) (ht' : Upto64 t') (hs : small t = false) (h1 : t'.lo ≤ t.lo) (h2 : t.hi ≤ t'.hi) : t = t' := by
  cases t <;> simp only [small, Bool.true_eq_false] at hs <;> first | exact absurd rfl ht.1 | exact absurd rfl ht.2 | skip
  all_goals cases t' <;> first | rfl | exact absurd rfl ht'.1 | exact absurd rfl ht'.2 | (simp only [IntTy.lo, IntTy.hi] at h1 h2; omega)

theorem spells_wide {t t' : IntTy} {s : String} {n : Int} (h1 : t'.lo ≤ t.lo) (h : Spells t s n) : Spells t' s n := by
  obtain ⟨ds, m, h2, h3⟩ := h
  refine ⟨ds, m, h2, ?_⟩
  rcases h3 with h3 | h3 | ⟨h3, h4⟩
  · exact Or.inl h3
  · exact Or.inr (Or.inl h3)
  · refine Or.inr (Or.inr ⟨?_, h4⟩)
    cases t <;> simp only [isSigned, Bool.false_eq_true] at h3 <;> cases t' <;> first | rfl | (simp only [IntTy.lo] at h1; omega)

/-- What a type reads as a number, a wider type reads as the same number. -/
theorem int_wide {t t' : IntTy} (ht : Upto64 t) (ht' : Upto64 t') (h1 : t'.lo ≤ t.lo) (h2 : t.hi ≤ t'.hi) (v : Value) (n : IntOf t)
    (h : v.tryInto (.int t) = .ok n) : ∃ n' : IntOf t', v.tryInto (.int t') = .ok n' ∧ n.1 = n'.1 := by
  have hr : InRange t' n.1 := (inRange_iff _ _).2 ⟨le_trans h1 n.2.1, le_trans n.2.2 h2⟩
  have hint : ∀ m src, integerOf v = some (m, src) → ∃ n' : IntOf t', v.tryInto (.int t') = .ok n' ∧ n.1 = n'.1 := by
    intro m src hv
    have a := C23_int_to_int t v m src hv
    have b := C23_int_to_int t' v m src hv
    change v.tryIntoInt t = .ok n at h
    by_cases hm : InRange t m
    · obtain ⟨r, e1, e2⟩ := a.1 hm
      rw [e1] at h; cases h
      obtain ⟨r', e3, e4⟩ := b.1 (by rw [← e2]; exact hr)
      exact ⟨r', e3, by rw [e2, e4]⟩
    · rw [a.2 hm] at h; cases h
  cases v with
  | integer m => exact hint _ _ rfl
  | longInteger m => exact hint _ _ rfl
  | uInteger m => exact hint _ _ rfl
  | uLongInteger m => exact hint _ _ rfl
  | boolean b =>
    obtain ⟨r, e1, e2⟩ := C23_bool_to_int t b
    obtain ⟨r', e3, e4⟩ := C23_bool_to_int t' b
    change Value.tryIntoInt t _ = .ok n at h
    rw [e1] at h; cases h
    exact ⟨r', e3, by rw [e2, e4]⟩
  | string s =>
    obtain ⟨e1, e2⟩ := (C25_string_to_int t s 0).2.1 n h
    obtain ⟨r, e3, e4⟩ := (C25_string_to_int t' s n.1).1 (spells_wide h1 e1) hr
    exact ⟨r, e3, e4.symm⟩
  | float x =>
    cases hsm : small t with
    | false =>
      obtain rfl := wide_same ht ht' hsm h1 h2
      exact ⟨n, h, rfl⟩
    | true =>
      change Value.tryIntoInt t _ = .ok n at h
      cases hx : x.1 with
      | nan =>
        obtain ⟨r, e1, e2⟩ := (C27_nan_inf t x).1 hx
        obtain ⟨r', e3, e4⟩ := (C27_nan_inf t' x).1 hx
        rw [e1] at h; cases h
        exact ⟨r', e3, by rw [e2, e4]⟩
      | inf s => rw [(C27_nan_inf t x).2.1 s hx hsm] at h; cases h
      | fin neg m e =>
        obtain ⟨q, hq⟩ : ∃ q, ratOf x.1 = some q := by rw [hx]; exact ⟨_, rfl⟩
        by_cases hi : InRange t (trunc q)
        · obtain ⟨r, e1, e2⟩ := (C27_float_to_int t x q hq).1 (by rintro rfl; exact ht.2 rfl) hi
          rw [e1] at h; cases h
          obtain ⟨r', e3, e4⟩ := (C27_float_to_int t' x q hq).1 (by rintro rfl; exact ht'.2 rfl) (by rw [← e2]; exact hr)
          exact ⟨r', e3, by rw [e2, e4]⟩
        · rw [(C27_float_to_int t x q hq).2.1 hsm hi] at h; cases h
  | none => rw [C31_containers_never_convert (.int t) .none "None" rfl] at h; cases h
  | array xs => rw [C31_containers_never_convert (.int t) (.array xs) "Array" rfl] at h; cases h
  | map m => rw [C31_containers_never_convert (.int t) (.map m) "Map" rfl] at h; cases h

theorem deInt_wide {t t' : IntTy} (ht' : Upto64 t') (h1 : t'.lo ≤ t.lo) (h2 : t.hi ≤ t'.hi) (v : Value) (n : IntOf t)
    (h : deInt t v = .ok n) : ∃ n' : IntOf t', deInt t' v = .ok n' ∧ n.1 = n'.1 := by
  have ht : Upto64 t := by
    constructor <;> rintro rfl <;> rw [deInt] at h <;> cases h
  rw [deInt_eq ht] at h
  have h' : v.tryInto (.int t) = .ok n := by
    cases hv : v.tryInto (.int t) with
    | ok m => rw [hv] at h; injection h with h; rw [h]
    | error e => rw [hv] at h; cases h
  obtain ⟨n', e1, e2⟩ := int_wide ht ht' h1 h2 v n h'
  exact ⟨n', by rw [deInt_eq ht', e1]; rfl, e2⟩

/-! ## One type -/

/-- A type that is never `None` is not read from `None`. -/
theorem de_none_err {refs : Nat → Decoder} (hr : ∀ n d, refs n .none ≠ .ok d) (t : Ty) : Nullable t = false → ∀ d, de refs t .none ≠ .ok d := by
  have sc : ∀ (s : Scalar) (f : s.T → Data) (d : Data), (Outcome.ofExcept (Value.tryInto s .none) >>= fun a => Outcome.ok (f a)) ≠ .ok d := by
    intro s f d h
    rw [C31_containers_never_convert s .none "None" rfl] at h; cases h
  induction t using Ty.ind with
  | bool => intro _ d; rw [de]; exact sc .bool _ d
  | int t =>
    intro _ d; rw [de]
    intro h
    obtain ⟨n, hn, -⟩ := bind_eq_ok.1 h
    by_cases ht : Upto64 t
    · rw [deInt_eq ht, C31_containers_never_convert (.int t) .none "None" rfl] at hn; cases hn
    · cases t <;> first | (rw [deInt] at hn; cases hn; done) | exact ht ⟨by decide, by decide⟩
  | f32 => intro _ d; rw [de]; exact sc .f64 _ d
  | f64 => intro _ d; rw [de]; exact sc .f64 _ d
  | char => intro _ d; rw [de]; exact sc .char _ d
  | string => intro _ d; rw [de]; exact sc .string _ d
  | unit | unitStruct | value | option _ _ => intro h; simp [Nullable] at h
  | bytes | enum => intro _ d h; rw [de] at h; cases h
  | newtype t ih =>
    intro h d hd
    rw [de, bind_eq_ok] at hd
    obtain ⟨x, hx, -⟩ := hd
    exact ih h x hx
  | seq | tuple | tupleStruct | map => intro _ d h; simp only [de, reduceCtorEq] at h
  | struct => intro _ d h; simp only [de, deStruct, reduceCtorEq] at h
  | ref n => intro _ d h; rw [de] at h; exact hr n d h

theorem refsAt_none (structs : Nat → List (String × Ty)) (k n : Nat) (d : Data) : refsAt structs k n .none ≠ .ok d := by
  cases k with
  | zero => intro h; cases h
  | succ k => rw [refsAt]; intro h; simp only [de, deStruct, reduceCtorEq] at h

theorem missing_cases {name : String} {t : Ty} {d : Data} (h : missingField name t = .ok d) : d = .none ∧ ∃ u, t = .option u := by
  cases t <;> simp only [missingField, Outcome.ok.injEq, reduceCtorEq] at h
  exact ⟨h.symm, _, rfl⟩

theorem evolves_option {t t' : Ty} (h : Evolves t t') : ∀ u, t = .option u → ∃ u', t' = .option u' := by
  intro u hu
  subst hu
  cases h with
  | leaf h => simp at h
  | wrap h | intoNewtype h => simp [Nullable] at h
  | option h => exact ⟨_, rfl⟩

theorem keyInsert_rel {R : Data → Data → Prop} {k : Key} {d d' : Data} (h : R d d') : ∀ {es es' : List (Key × Data)},
    List.Forall₂ (fun a b => b.1 = a.1 ∧ R a.2 b.2) es es' →
    List.Forall₂ (fun a b => b.1 = a.1 ∧ R a.2 b.2) (keyInsert es k d) (keyInsert es' k d') := by
  intro es es' hes
  induction hes with
  | nil => exact .cons ⟨rfl, h⟩ .nil
  | @cons a b r r' h1 h2 ih =>
    obtain ⟨ak, av⟩ := a
    obtain ⟨bk, bv⟩ := b
    obtain ⟨e, h1⟩ := h1
    simp only at e h1
    subst e
    simp only [keyInsert]
    split
    · exact .cons ⟨rfl, h⟩ h2
    · exact .cons ⟨rfl, h1⟩ ih

theorem keyInsAll_rel {R : Data → Data → Prop} {kds kds' : List (Key × Data)}
    (h : List.Forall₂ (fun a b => b.1 = a.1 ∧ R a.2 b.2) kds kds') : ∀ {es es' : List (Key × Data)},
    List.Forall₂ (fun a b => b.1 = a.1 ∧ R a.2 b.2) es es' →
    List.Forall₂ (fun a b => b.1 = a.1 ∧ R a.2 b.2) (keyInsAll es kds) (keyInsAll es' kds') := by
  induction h with
  | nil => intro es es' h; exact h
  | @cons a b r r' h1 h2 ih =>
    intro es es' hes
    have := keyInsert_rel (k := a.1) h1.2 hes
    rw [← h1.1] at this
    have := ih this
    simpa only [keyInsAll, List.foldl_cons, h1.1] using this

theorem carried_map {new : Data → Prop} {es es' : List (Key × Data)} (h : List.Forall₂ (fun a b => b.1 = a.1 ∧ Carried new a.2 b.2) es es') :
    Carried new (.map (es.map fun e => (e.1.toData, e.2))) (.map (es'.map fun e => (e.1.toData, e.2))) := by
  obtain ⟨l, h1⟩ := forall2_index h
  refine .map ?_ ?_
  · rw [List.map_map, List.map_map]
    apply List.ext_getElem?
    intro i
    rw [List.getElem?_map, List.getElem?_map]
    cases hi : es[i]? with
    | none =>
      have : es'[i]? = none := by rw [List.getElem?_eq_none_iff] at hi ⊢; omega
      rw [this]
    | some a =>
      obtain ⟨b, hb⟩ := get_of_lt (show i < es'.length by have := lt_of_get hi; omega)
      rw [hb]
      simp only [Option.map_some, Function.comp, (h1 i a b hi hb).1]
  · intro i e e' he he'
    rw [List.getElem?_map, Option.map_eq_some_iff] at he he'
    obtain ⟨a, ha, rfl⟩ := he
    obtain ⟨b, hb, rfl⟩ := he'
    exact (h1 i a b ha hb).2

/-- The fields that a struct's reading comes from. -/
theorem struct_map {refs : Nat → Decoder} {fs : List (String × Ty)} {v : Value} {d : Data} (h : de refs (.struct fs) v = .ok d) :
    ∃ m, v = .map m := by
  cases v <;> simp only [de, deStruct, reduceCtorEq] at h
  exact ⟨_, rfl⟩

theorem fields_of {refs : Nat → Decoder} {fs : List (String × Ty)} {m : Entries} {ds : List (String × Data)}
    (h : List.Forall₂ (fun (f : String × Ty) (nd : String × Data) => nd.1 = f.1 ∧
      (match hmGet m f.1 with | some v => de refs f.2 v | none => missingField f.1 f.2) = .ok nd.2) fs ds) :
    ds.map Prod.fst = fs.map Prod.fst ∧ ∀ name d, (name, d) ∈ ds → ∃ t, (name, t) ∈ fs ∧
      (match hmGet m name with | some v => de refs t v | none => missingField name t) = .ok d := by
  induction h with
  | nil => exact ⟨rfl, by simp⟩
  | @cons f nd r r' h1 h2 ih =>
    refine ⟨by simp only [List.map_cons, h1.1, ih.1], fun name d hd => ?_⟩
    rcases List.mem_cons.1 hd with e | hd
    · obtain ⟨fn, ft⟩ := f
      obtain ⟨nn, nv⟩ := nd
      obtain ⟨rfl, rfl⟩ := Prod.mk.inj e
      obtain ⟨e1, e2⟩ := h1
      simp only at e1 e2
      subst e1
      exact ⟨ft, List.mem_cons_self, e2⟩
    · obtain ⟨t, e1, e2⟩ := ih.2 name d hd
      exact ⟨t, List.mem_cons_of_mem _ e1, e2⟩

theorem mem_unique {α : Type} {l : List (String × α)} (hn : (l.map Prod.fst).Nodup) {k : String} {a b : α} (ha : (k, a) ∈ l) (hb : (k, b) ∈ l) :
    a = b := by
  have h1 := hmGet_of_mem hn ha
  rw [hmGet_of_mem hn hb] at h1
  exact (Option.some.inj h1).symm


/-- Reading as the new type, given what the references are read as. -/
theorem evolve_de {structs : Nat → List (String × Ty)} {refs refs' : Nat → Decoder} (hr : ∀ n d, refs n .none ≠ .ok d)
    (hrefs : ∀ n v d, UniqueKeys v → OnlyKnown structs (.struct (structs n)) v → refs n v = .ok d →
      ∃ d', refs' n v = .ok d' ∧ Carried (· = .none) d d')
    {t t' : Ty} (h : Evolves t t') : ∀ v d, UniqueKeys v → OnlyKnown structs t v → de refs t v = .ok d →
      ∃ d', de refs' t' v = .ok d' ∧ Carried (· = .none) d d' := by
  have tup : ∀ {ts ts' : List Ty}, ts'.length ≤ ts.length →
      (∀ (i : Nat) t t', ts[i]? = some t → ts'[i]? = some t' → ∀ v d, UniqueKeys v → OnlyKnown structs t v → de refs t v = .ok d →
        ∃ d', de refs' t' v = .ok d' ∧ Carried (· = .none) d d') →
      ∀ {xs : List Value} {ds : List Data}, UniqueKeys (.array xs) →
      (∀ (i : Nat) t x, ts[i]? = some t → xs[i]? = some x → OnlyKnown structs t x) →
      ts.length ≤ xs.length → ds.length = ts.length →
      (∀ (i : Nat) t x y, ts[i]? = some t → xs[i]? = some x → ds[i]? = some y → de refs t x = .ok y) →
      ∃ ds' : List Data, ds'.length = ts'.length ∧
        (∀ (i : Nat) t x y, ts'[i]? = some t → xs[i]? = some x → ds'[i]? = some y → de refs' t x = .ok y) ∧
        ∀ (i : Nat) d d', ds[i]? = Option.some d → ds'[i]? = Option.some d' → Carried (· = .none) d d' := by
    intro ts ts' hl ih xs ds hu hk l1 l2 hde
    have step : ∀ i, i < ts'.length → ∃ y, ∀ t' x d, ts'[i]? = some t' → xs[i]? = some x → ds[i]? = some d →
        de refs' t' x = .ok y ∧ Carried (· = .none) d y := by
      intro i hi
      obtain ⟨t', ht'⟩ := get_of_lt hi
      obtain ⟨t, ht⟩ := get_of_lt (show i < ts.length by omega)
      obtain ⟨x, hx⟩ := get_of_lt (show i < xs.length by omega)
      obtain ⟨d, hd⟩ := get_of_lt (show i < ds.length by omega)
      obtain ⟨y, hy⟩ := ih i t t' ht ht' x d (uniqueKeys_array.1 hu x (List.mem_of_getElem? hx)) (hk i t x ht hx) (hde i t x d ht hx hd)
      refine ⟨y, fun t1 x1 d1 e1 e2 e3 => ?_⟩
      rw [ht'] at e1; rw [hx] at e2; rw [hd] at e3
      cases e1; cases e2; cases e3
      exact hy
    obtain ⟨ds', l3, h3⟩ := list_choose _ step
    refine ⟨ds', l3, fun i t' x y ht' hx hy => ?_, fun i d d' hd hd' => ?_⟩
    · obtain ⟨d, hd⟩ := get_of_lt (show i < ds.length by have := lt_of_get ht'; omega)
      exact (h3 i y hy t' x d ht' hx hd).1
    · obtain ⟨t', ht'⟩ := get_of_lt (show i < ts'.length by have := lt_of_get hd'; omega)
      obtain ⟨x, hx⟩ := get_of_lt (show i < xs.length by have := lt_of_get hd'; omega)
      exact (h3 i d' hd' t' x d ht' hx hd).2
  induction h with
  | @leaf t ht =>
    intro v d _ _ hd
    refine ⟨d, ?_, .same d⟩
    rw [← hd]
    simp only [List.mem_cons, List.not_mem_nil, or_false] at ht
    rcases ht with rfl | rfl | rfl | rfl | rfl | rfl | rfl | rfl <;> simp only [de]
  | int ht' h1 h2 =>
    intro v d _ _ hd
    rw [de] at hd
    obtain ⟨n, hn, hd⟩ := bind_eq_ok.1 hd
    obtain ⟨n', e1, e2⟩ := deInt_wide ht' h1 h2 v n hn
    cases hd
    exact ⟨_, by rw [de, e1]; rfl, .int n n' e2⟩
  | float =>
    intro v d _ _ hd
    rw [de] at hd
    obtain ⟨x, hx, hd⟩ := bind_eq_ok.1 hd
    cases hd
    exact ⟨_, by rw [de, hx]; rfl, .float x⟩
  | wrap hn _ ih =>
    intro v d hu hk hd
    obtain ⟨d', e1, e2⟩ := ih v d hu hk hd
    have : v ≠ .none := by rintro rfl; exact de_none_err hr _ hn d hd
    refine ⟨.some d', ?_, .wrap e2⟩
    rw [de]
    · rw [e1]; rfl
    · exact fun e => absurd e this
  | intoNewtype hn _ ih =>
    intro v d hu hk hd
    obtain ⟨d', e1, e2⟩ := ih v d hu hk hd
    exact ⟨_, by rw [de, e1]; rfl, .intoNewtype e2⟩
  | outOfNewtype _ ih =>
    intro v d hu hk hd
    rw [de] at hd
    obtain ⟨x, hx, hd⟩ := bind_eq_ok.1 hd
    cases hk with
    | leaf hk => simp at hk
    | newtype hk =>
    obtain ⟨d', e1, e2⟩ := ih v x hu hk hx
    cases hd
    exact ⟨d', e1, .outOfNewtype e2⟩
  | option _ ih =>
    intro v d hu hk hd
    cases hk with
    | leaf hk => simp at hk
    | option hk =>
    by_cases hv : v = .none
    · subst hv
      simp only [de, Outcome.ok.injEq] at hd ⊢
      exact ⟨_, rfl, by rw [← hd]; exact .same _⟩
    · rw [de] at hd
      · obtain ⟨x, hx, hd⟩ := bind_eq_ok.1 hd
        obtain ⟨d', e1, e2⟩ := ih v x hu hk hx
        cases hd
        refine ⟨.some d', ?_, .some e2⟩
        rw [de]
        · rw [e1]; rfl
        · exact fun e => absurd e hv
      · exact fun e => absurd e hv
  | newtype _ ih =>
    intro v d hu hk hd
    rw [de] at hd
    obtain ⟨x, hx, hd⟩ := bind_eq_ok.1 hd
    cases hk with
    | leaf hk => simp at hk
    | newtype hk =>
    obtain ⟨d', e1, e2⟩ := ih v x hu hk hx
    cases hd
    exact ⟨_, by rw [de, e1]; rfl, .newtype e2⟩
  | @seq t t' _ ih =>
    intro v d hu hk hd
    cases hk with
    | leaf hk => simp at hk
    | seq hk =>
    cases v <;> simp only [de, reduceCtorEq] at hd
    rename_i xs
    replace hd : de refs (.seq t) (.array xs) = .ok d := by simpa only [de] using hd
    obtain ⟨ds, rfl, l1, h1⟩ := (de_seq_ok _ _ _ _).1 hd
    obtain ⟨ds', l2, h2, h3⟩ := tup (ts := List.replicate xs.length t) (ts' := List.replicate xs.length t') (by simp)
      (by
        intro i a b ha hb
        rw [List.eq_of_mem_replicate (List.mem_of_getElem? ha), List.eq_of_mem_replicate (List.mem_of_getElem? hb)]
        exact ih) (xs := xs) (ds := ds) hu
      (by
        intro i a x ha hx
        rw [List.eq_of_mem_replicate (List.mem_of_getElem? ha)]
        exact hk i x hx) (by simp) (by simpa using l1)
      (by
        intro i a x y ha hx hy
        rw [List.eq_of_mem_replicate (List.mem_of_getElem? ha)]
        exact h1 i x y hx hy)
    rw [List.length_replicate] at l2
    refine ⟨.seq ds', (de_seq_ok _ _ _ _).2 ⟨ds', rfl, l2, fun i x y hx hy => h2 i t' x y ?_ hx hy⟩, .seq (by omega) h3⟩
    rw [List.getElem?_replicate, if_pos (lt_of_get hx)]
  | @tuple ts ts' hl _ ih =>
    intro v d hu hk hd
    cases hk with
    | leaf hk => simp at hk
    | tuple hk =>
    cases v <;> simp only [de, reduceCtorEq] at hd
    rename_i xs
    replace hd : de refs (.tuple ts) (.array xs) = .ok d := by simpa only [de] using hd
    obtain ⟨ds, rfl, l1, l2, h1⟩ := (de_tuple_ok _ _ _ _).1 hd
    obtain ⟨ds', l3, h2, h3⟩ := tup hl ih hu hk l1 l2 h1
    exact ⟨.tuple ds', (de_tuple_ok _ _ _ _).2 ⟨ds', rfl, by omega, l3, h2⟩, .tuple (by omega) h3⟩
  | @tupleStruct ts ts' hl _ ih =>
    intro v d hu hk hd
    cases hk with
    | leaf hk => simp at hk
    | tupleStruct hk =>
    cases v <;> simp only [de, reduceCtorEq] at hd
    rename_i xs
    replace hd : de refs (.tupleStruct ts) (.array xs) = .ok d := by simpa only [de] using hd
    obtain ⟨ds, rfl, l1, l2, h1⟩ := (de_tupleStruct_ok _ _ _ _).1 hd
    obtain ⟨ds', l3, h2, h3⟩ := tup hl ih hu hk l1 l2 h1
    exact ⟨.tupleStruct ds', (de_tupleStruct_ok _ _ _ _).2 ⟨ds', rfl, by omega, l3, h2⟩, .tupleStruct (by omega) h3⟩
  | @map kt t t' _ ih =>
    intro v d hu hk hd
    cases hk with
    | leaf hk => simp at hk
    | map hk =>
    cases v <;> simp only [de, reduceCtorEq] at hd
    rename_i m
    obtain ⟨es, hes, hd⟩ := bind_eq_ok.1 hd
    obtain ⟨kds, h1, rfl⟩ := (deMapLoop_ok _ _ _ _ _).1 hes
    cases hd
    have : ∃ kds' : List (Key × Data), List.Forall₂ (fun e kd => deKey kt e.1 = .ok kd.1 ∧ de refs' t' e.2 = .ok kd.2) m kds' ∧
        List.Forall₂ (fun a b => b.1 = a.1 ∧ Carried (· = .none) a.2 b.2) kds kds' := by
      have hmem : ∀ e ∈ m, UniqueKeys e.2 ∧ OnlyKnown structs t e.2 := by
        intro e he
        have hn := uniqueKeys_map.1 hu
        refine ⟨hn.2 e he, hk e.1 e.2 ?_⟩
        rw [child_key_map]; exact hmGet_of_mem hn.1 he
      clear hu hk hes hd
      induction h1 with
      | nil => exact ⟨[], .nil, .nil⟩
      | @cons e kd r r' h1 _ ih2 =>
        obtain ⟨kds', e1, e2⟩ := ih2 (fun e he => hmem e (List.mem_cons_of_mem _ he))
        obtain ⟨h3, h4⟩ := hmem e List.mem_cons_self
        obtain ⟨d', e3, e4⟩ := ih e.2 kd.2 h3 h4 h1.2
        exact ⟨(kd.1, d') :: kds', .cons ⟨h1.1, e3⟩ e1, .cons ⟨rfl, e4⟩ e2⟩
    obtain ⟨kds', h2, h3⟩ := this
    refine ⟨_, ?_, carried_map (keyInsAll_rel h3 (es := []) (es' := []) .nil)⟩
    rw [de, bind_eq_ok]
    exact ⟨_, (deMapLoop_ok kt _ m [] _).2 ⟨kds', h2, rfl⟩, rfl⟩
  | @struct fs fs' hn hn' hev hnew ih =>
    intro v d hu hk hd
    cases hk with
    | leaf hk => simp at hk
    | struct hk1 hk2 =>
    obtain ⟨m, rfl⟩ := struct_map hd
    have hum := uniqueKeys_map.1 hu
    obtain ⟨ds, rfl, h1⟩ := (de_struct_ok _ _ hn _ hum.1 _).1 hd
    obtain ⟨hnames, hfields⟩ := fields_of h1
    have step : ∀ f' ∈ fs', ∃ nd : String × Data, (nd.1 = f'.1 ∧
        (match hmGet m f'.1 with | some v => de refs' f'.2 v | none => missingField f'.1 f'.2) = .ok nd.2) ∧
        (∀ d, (f'.1, d) ∈ ds → Carried (· = .none) d nd.2) ∧ (f'.1 ∉ ds.map Prod.fst → nd.2 = .none) := by
      rintro ⟨name, t'⟩ hf'
      by_cases hold : name ∈ ds.map Prod.fst
      · obtain ⟨⟨name2, d⟩, hmem, e⟩ := List.mem_map.1 hold
        simp only at e
        subst e
        obtain ⟨t, ht, hrd⟩ := hfields _ d hmem
        have huniq : ∀ d2, (name2, d2) ∈ ds → d2 = d := fun d2 h2 => mem_unique (by rw [hnames]; exact hn) h2 hmem
        simp only at hf' ht hrd hold ⊢
        cases hg : hmGet m name2 with
        | none =>
          rw [hg] at hrd
          obtain ⟨rfl, u, rfl⟩ := missing_cases hrd
          obtain ⟨u', rfl⟩ := evolves_option (hev name2 _ _ ht hf') u rfl
          exact ⟨(name2, .none), ⟨rfl, rfl⟩, fun d2 h2 => by rw [huniq d2 h2]; exact .same _, fun h => absurd hold h⟩
        | some x =>
          rw [hg] at hrd
          have hc : child (.map m) (.key name2) = some x := by rw [child_key_map]; exact hg
          obtain ⟨d', e1, e2⟩ := ih name2 t t' ht hf' x d (hum.2 _ (hmGet_mem hg)) (hk2 name2 x t hc ht) hrd
          exact ⟨(name2, d'), ⟨rfl, e1⟩, fun d2 h2 => by rw [huniq d2 h2]; exact e2, fun h => absurd hold h⟩
      · simp only at hf' hold ⊢
        have hno : name ∉ fs.map Prod.fst := by rw [← hnames]; exact hold
        obtain ⟨u, rfl⟩ := hnew name t' hf' hno
        have hg : hmGet m name = none := by
          cases hg : hmGet m name with
          | none => rfl
          | some x => exact absurd (hk1 name x (by rw [child_key_map]; exact hg)) hno
        rw [hg]
        exact ⟨(name, .none), ⟨rfl, rfl⟩, fun d2 h2 => absurd (List.mem_map_of_mem (f := Prod.fst) h2) hold, fun _ => rfl⟩
    obtain ⟨ds', h2⟩ := forall2_exists step
    refine ⟨.struct ds', (de_struct_ok _ _ hn' _ hum.1 _).2 ⟨ds', rfl, h2.imp fun _ _ h => h.1⟩, .struct ?_ ?_⟩
    · intro name d d' hd hd'
      obtain ⟨f', hf', h3, h4, -⟩ := forall2_right h2 _ hd'
      exact h4 d (by rw [← h3.1]; exact hd)
    · intro name d' hd' hno
      obtain ⟨f', hf', h3, -, h4⟩ := forall2_right h2 _ hd'
      exact h4 (by rw [← h3.1]; exact hno)
  | ref n =>
    intro v d hu hk hd
    cases hk with
    | leaf hk => simp at hk
    | ref hk =>
    rw [de] at hd
    obtain ⟨d', e1, e2⟩ := hrefs n v d hu hk hd
    exact ⟨d', by rw [de]; exact e1, e2⟩

/-- Two readings of the same value agree, given that those of the references do. -/
theorem agree_de {refs refs' : Nat → Decoder} (hr : ∀ n d, refs n .none ≠ .ok d)
    (hrefs : ∀ n v d d', UniqueKeys v → refs n v = .ok d → refs' n v = .ok d' → Carried (fun _ => True) d d')
    {t t' : Ty} (h : Evolves t t') : ∀ v d d', UniqueKeys v → de refs t v = .ok d → de refs' t' v = .ok d' → Carried (fun _ => True) d d' := by
  have tup : ∀ {ts ts' : List Ty}, ts'.length ≤ ts.length →
      (∀ (i : Nat) t t', ts[i]? = some t → ts'[i]? = some t' → ∀ v d d', UniqueKeys v → de refs t v = .ok d → de refs' t' v = .ok d' →
        Carried (fun _ => True) d d') →
      ∀ {xs : List Value} {ds ds' : List Data}, UniqueKeys (.array xs) → ts.length ≤ xs.length → ds.length = ts.length → ds'.length = ts'.length →
      (∀ (i : Nat) t x y, ts[i]? = some t → xs[i]? = some x → ds[i]? = some y → de refs t x = .ok y) →
      (∀ (i : Nat) t x y, ts'[i]? = some t → xs[i]? = some x → ds'[i]? = some y → de refs' t x = .ok y) →
      ∀ (i : Nat) d d', ds[i]? = Option.some d → ds'[i]? = Option.some d' → Carried (fun _ => True) d d' := by
    intro ts ts' hl ih xs ds ds' hu l1 l2 l3 h1 h2 i d d' hd hd'
    have hi := lt_of_get hd'
    obtain ⟨t, ht⟩ := get_of_lt (show i < ts.length by omega)
    obtain ⟨t', ht'⟩ := get_of_lt (show i < ts'.length by omega)
    obtain ⟨x, hx⟩ := get_of_lt (show i < xs.length by omega)
    exact ih i t t' ht ht' x d d' (uniqueKeys_array.1 hu x (List.mem_of_getElem? hx)) (h1 i t x d ht hx hd) (h2 i t' x d' ht' hx hd')
  induction h with
  | @leaf t ht =>
    intro v d d' _ hd hd'
    have : de refs' t v = de refs t v := by
      simp only [List.mem_cons, List.not_mem_nil, or_false] at ht
      rcases ht with rfl | rfl | rfl | rfl | rfl | rfl | rfl | rfl <;> simp only [de]
    rw [this, hd] at hd'
    cases hd'
    exact .same d
  | int ht' h1 h2 =>
    intro v d d' _ hd hd'
    rw [de] at hd hd'
    obtain ⟨n, hn, hd⟩ := bind_eq_ok.1 hd
    obtain ⟨n', e1, e2⟩ := deInt_wide ht' h1 h2 v n hn
    obtain ⟨n2, hn2, hd'⟩ := bind_eq_ok.1 hd'
    rw [e1] at hn2
    cases hd; cases hd'; cases hn2
    exact .int n n' e2
  | float =>
    intro v d d' _ hd hd'
    rw [de] at hd
    rw [de] at hd'
    obtain ⟨x, hx, hd⟩ := bind_eq_ok.1 hd
    obtain ⟨y, hy, hd'⟩ := bind_eq_ok.1 hd'
    rw [hx] at hy
    cases hd; cases hd'; cases hy
    exact .float x
  | wrap hn _ ih =>
    intro v d d' hu hd hd'
    have : v ≠ .none := by rintro rfl; exact de_none_err hr _ hn d hd
    rw [de] at hd'
    · obtain ⟨y, hy, hd'⟩ := bind_eq_ok.1 hd'
      cases hd'
      exact .wrap (ih v d y hu hd hy)
    · exact fun e => absurd e this
  | intoNewtype hn _ ih =>
    intro v d d' hu hd hd'
    rw [de] at hd'
    obtain ⟨y, hy, hd'⟩ := bind_eq_ok.1 hd'
    cases hd'
    exact .intoNewtype (ih v d y hu hd hy)
  | outOfNewtype _ ih =>
    intro v d d' hu hd hd'
    rw [de] at hd
    obtain ⟨x, hx, hd⟩ := bind_eq_ok.1 hd
    cases hd
    exact .outOfNewtype (ih v x d' hu hx hd')
  | option _ ih =>
    intro v d d' hu hd hd'
    by_cases hv : v = .none
    · subst hv
      simp only [de, Outcome.ok.injEq] at hd hd'
      rw [← hd, ← hd']; exact .same _
    · rw [de] at hd hd'
      · obtain ⟨x, hx, hd⟩ := bind_eq_ok.1 hd
        obtain ⟨y, hy, hd'⟩ := bind_eq_ok.1 hd'
        cases hd; cases hd'
        exact .some (ih v x y hu hx hy)
      · exact fun e => absurd e hv
      · exact fun e => absurd e hv
  | newtype _ ih =>
    intro v d d' hu hd hd'
    rw [de] at hd hd'
    obtain ⟨x, hx, hd⟩ := bind_eq_ok.1 hd
    obtain ⟨y, hy, hd'⟩ := bind_eq_ok.1 hd'
    cases hd; cases hd'
    exact .newtype (ih v x y hu hx hy)
  | @seq t t' _ ih =>
    intro v d d' hu hd hd'
    have : ∃ xs, v = .array xs := by cases v <;> simp only [de, reduceCtorEq] at hd; exact ⟨_, rfl⟩
    obtain ⟨xs, rfl⟩ := this
    obtain ⟨ds, rfl, l1, h1⟩ := (de_seq_ok _ _ _ _).1 hd
    obtain ⟨ds', rfl, l2, h2⟩ := (de_seq_ok _ _ _ _).1 hd'
    refine .seq (by omega) fun i d d' hd hd' => ?_
    obtain ⟨x, hx⟩ := get_of_lt (show i < xs.length by have := lt_of_get hd; omega)
    exact ih x d d' (uniqueKeys_array.1 hu x (List.mem_of_getElem? hx)) (h1 i x d hx hd) (h2 i x d' hx hd')
  | @tuple ts ts' hl _ ih =>
    intro v d d' hu hd hd'
    have : ∃ xs, v = .array xs := by cases v <;> simp only [de, reduceCtorEq] at hd; exact ⟨_, rfl⟩
    obtain ⟨xs, rfl⟩ := this
    obtain ⟨ds, rfl, l1, l2, h1⟩ := (de_tuple_ok _ _ _ _).1 hd
    obtain ⟨ds', rfl, l3, l4, h2⟩ := (de_tuple_ok _ _ _ _).1 hd'
    exact .tuple (by omega) (tup hl ih hu l1 l2 l4 h1 h2)
  | @tupleStruct ts ts' hl _ ih =>
    intro v d d' hu hd hd'
    have : ∃ xs, v = .array xs := by cases v <;> simp only [de, reduceCtorEq] at hd; exact ⟨_, rfl⟩
    obtain ⟨xs, rfl⟩ := this
    obtain ⟨ds, rfl, l1, l2, h1⟩ := (de_tupleStruct_ok _ _ _ _).1 hd
    obtain ⟨ds', rfl, l3, l4, h2⟩ := (de_tupleStruct_ok _ _ _ _).1 hd'
    exact .tupleStruct (by omega) (tup hl ih hu l1 l2 l4 h1 h2)
  | @map kt t t' _ ih =>
    intro v d d' hu hd hd'
    have : ∃ m, v = .map m := by cases v <;> simp only [de, reduceCtorEq] at hd; exact ⟨_, rfl⟩
    obtain ⟨m, rfl⟩ := this
    rw [de] at hd hd'
    obtain ⟨es, hes, hd⟩ := bind_eq_ok.1 hd
    obtain ⟨es', hes', hd'⟩ := bind_eq_ok.1 hd'
    obtain ⟨kds, h1, rfl⟩ := (deMapLoop_ok _ _ _ _ _).1 hes
    obtain ⟨kds', h2, rfl⟩ := (deMapLoop_ok _ _ _ _ _).1 hes'
    cases hd; cases hd'
    refine carried_map (keyInsAll_rel ?_ (es := []) (es' := []) .nil)
    obtain ⟨l1, h3⟩ := forall2_index h1
    obtain ⟨l2, h4⟩ := forall2_index h2
    refine forall2_of_index (by omega) fun i a b ha hb => ?_
    obtain ⟨e, he⟩ := get_of_lt (show i < m.length by have := lt_of_get ha; omega)
    obtain ⟨e1, e2⟩ := h3 i e a he ha
    obtain ⟨e3, e4⟩ := h4 i e b he hb
    rw [e1] at e3
    exact ⟨(Outcome.ok.inj e3).symm, ih e.2 a.2 b.2 ((uniqueKeys_map.1 hu).2 e (List.mem_of_getElem? he)) e2 e4⟩
  | @struct fs fs' hn hn' hev hnew ih =>
    intro v d d' hu hd hd'
    obtain ⟨m, rfl⟩ := struct_map hd
    have hum := uniqueKeys_map.1 hu
    obtain ⟨ds, rfl, h1⟩ := (de_struct_ok _ _ hn _ hum.1 _).1 hd
    obtain ⟨ds', rfl, h2⟩ := (de_struct_ok _ _ hn' _ hum.1 _).1 hd'
    obtain ⟨-, hfields⟩ := fields_of h1
    obtain ⟨-, hfields'⟩ := fields_of h2
    refine .struct (fun name x x' hx hx' => ?_) (fun _ _ _ _ => trivial)
    obtain ⟨t, ht, hr1⟩ := hfields name x hx
    obtain ⟨t', ht', hr2⟩ := hfields' name x' hx'
    cases hg : hmGet m name with
    | none =>
      rw [hg] at hr1 hr2
      obtain ⟨rfl, -⟩ := missing_cases hr1
      obtain ⟨rfl, -⟩ := missing_cases hr2
      exact .same _
    | some w =>
      rw [hg] at hr1 hr2
      exact ih name t t' ht ht' w x x' (hum.2 _ (hmGet_mem hg)) hr1 hr2
  | ref n =>
    intro v d d' hu hd hd'
    rw [de] at hd hd'
    exact hrefs n v d d' hu hd hd'

/-! ## C117 -/

/-- **C117.** A value that the old version of a type reads, and that has no keys the old version does not know, the new version reads as well, and
finds in it the same content; what it has in addition is `None`. Structs may refer to each other, to any depth. -/
theorem C117_upgrade (structs structs' : Nat → List (String × Ty)) (hs : ∀ n, Evolves (.struct (structs n)) (.struct (structs' n))) {T T' : Ty}
    (hT : Evolves T T') (k : Nat) (v : Value) (hu : UniqueKeys v) (hk : OnlyKnown structs T v) (d : Data) (hd : deAt structs k T v = .ok d) :
    ∃ d', deAt structs' k T' v = .ok d' ∧ Carried (· = .none) d d' := by
  have refs : ∀ k n v d, UniqueKeys v → OnlyKnown structs (.struct (structs n)) v → refsAt structs k n v = .ok d →
      ∃ d', refsAt structs' k n v = .ok d' ∧ Carried (· = .none) d d' := by
    intro k
    induction k with
    | zero => intro n v d _ _ h; cases h
    | succ k ih =>
      intro n v d hu hk hd
      exact evolve_de (refsAt_none structs k) ih (hs n) v d hu hk hd
  exact evolve_de (refsAt_none structs k) (refs k) hT v d hu hk hd

/-- **C117.** Whatever the value has: if both versions read it, they find the same content where both look. -/
theorem C117_agree (structs structs' : Nat → List (String × Ty)) (hs : ∀ n, Evolves (.struct (structs n)) (.struct (structs' n))) {T T' : Ty}
    (hT : Evolves T T') (k : Nat) (v : Value) (hu : UniqueKeys v) (d d' : Data) (hd : deAt structs k T v = .ok d)
    (hd' : deAt structs' k T' v = .ok d') : Carried (fun _ => True) d d' := by
  have refs : ∀ k n v d d', UniqueKeys v → refsAt structs k n v = .ok d → refsAt structs' k n v = .ok d' → Carried (fun _ => True) d d' := by
    intro k
    induction k with
    | zero => intro n v d d' _ h; cases h
    | succ k ih =>
      intro n v d d' hu hd hd'
      exact agree_de (refsAt_none structs k) ih (hs n) v d d' hu hd hd'
  exact agree_de (refsAt_none structs k) (refs k) hT v d d' hu hd hd'

/-! ## What was saved has only known keys -/

/-- Where `r` has something, `v` has something. -/
def Fewer (v r : Value) : Prop := ∀ p, view v p = none → view r p = none

theorem fewer_child {v r : Value} (h : Fewer v r) {s : Step} {y : Value} (hy : child r s = some y) : ∃ x, child v s = some x ∧ Fewer x y := by
  cases hx : child v s with
  | none =>
    have := h [s] (by simp only [view, hx, Option.bind_none])
    simp only [view, hy, Option.bind_some, reduceCtorEq] at this
  | some x =>
    refine ⟨x, rfl, fun p hp => ?_⟩
    have := h (s :: p) (by simp only [view, hx, Option.bind_some, hp])
    simpa only [view, hy, Option.bind_some] using this

theorem onlyKnown_fewer {structs : Nat → List (String × Ty)} {T : Ty} {v : Value} (h : OnlyKnown structs T v) : ∀ r, Fewer v r → OnlyKnown structs T r := by
  induction h with
  | leaf ht => intro r _; exact .leaf ht
  | int => intro r _; exact .int
  | option _ ih => intro r hr; exact .option (ih r hr)
  | newtype _ ih => intro r hr; exact .newtype (ih r hr)
  | seq _ ih =>
    intro r hr
    refine .seq fun i y hy => ?_
    obtain ⟨x, hx, hf⟩ := fewer_child hr hy
    exact ih i x hx y hf
  | tuple _ ih =>
    intro r hr
    refine .tuple fun i t y ht hy => ?_
    obtain ⟨x, hx, hf⟩ := fewer_child hr hy
    exact ih i t x ht hx y hf
  | tupleStruct _ ih =>
    intro r hr
    refine .tupleStruct fun i t y ht hy => ?_
    obtain ⟨x, hx, hf⟩ := fewer_child hr hy
    exact ih i t x ht hx y hf
  | map _ ih =>
    intro r hr
    refine .map fun k y hy => ?_
    obtain ⟨x, hx, hf⟩ := fewer_child hr hy
    exact ih k x hx y hf
  | struct h1 _ ih =>
    intro r hr
    refine .struct (fun k y hy => ?_) fun k y t hy ht => ?_
    · obtain ⟨x, hx, -⟩ := fewer_child hr hy
      exact h1 k x hx
    · obtain ⟨x, hx, hf⟩ := fewer_child hr hy
      exact ih k x t hx ht y hf
  | ref _ ih => intro r hr; exact .ref (ih r hr)

theorem fewer_of_alikeOmitting {v r : Value} (h : AlikeOmitting v r) : Fewer v r := by
  intro p hp
  have hn : ¬ NullEntry v p := fun hn => by rw [hn.2] at hp; cases hp
  rcases (h p).2 hn with ⟨-, h1⟩ | ⟨a, b, h1, -⟩
  · exact h1
  · rw [h1] at hp; cases hp

/-- `None` has no keys at all. -/
theorem onlyKnown_none (structs : Nat → List (String × Ty)) {t : Ty} (h : Survives t) : OnlyKnown structs t .none := by
  induction h with
  | int => exact .int
  | option _ _ ih => exact .option ih
  | newtype _ ih => exact .newtype ih
  | seq => exact .seq fun i x hx => by cases hx
  | tuple => exact .tuple fun i t x _ hx => by cases hx
  | tupleStruct => exact .tupleStruct fun i t x _ hx => by cases hx
  | map => exact .map fun k x hx => by cases hx
  | struct => exact .struct (fun k x hx => by cases hx) fun k x t hx => by cases hx
  | ref n => exact .ref (.struct (fun k x hx => by cases hx) fun k x t hx => by cases hx)
  | _ => exact .leaf (by simp)

/-- What serialization makes of typed data has only the keys of the type. -/
theorem onlyKnown_ser {structs : Nat → List (String × Ty)} (hs : ∀ n, Survives (.struct (structs n))) {T : Ty} {d : Data} (h : HasType structs T d) :
    Survives T → ∀ v, ser d = .ok v → OnlyKnown structs T v := by
  induction h with
  | bool | f32 | f64 | char | string | unit | unitStruct | value => intro _ v _; exact .leaf (by simp)
  | int => intro _ v _; exact .int
  | bytes => intro hT; cases hT
  | none t =>
    intro hT v hv
    rw [ser] at hv; cases hv
    cases hT with
    | option h1 h2 => exact .option (onlyKnown_none structs h1)
  | some _ ih =>
    intro hT v hv
    cases hT with
    | option h1 h2 => rw [ser] at hv; exact .option (ih h1 v hv)
  | newtype _ ih =>
    intro hT v hv
    cases hT with
    | newtype h1 => rw [ser] at hv; exact .newtype (ih h1 v hv)
  | seq _ ih =>
    intro hT v hv
    cases hT with
    | seq h1 =>
      obtain ⟨vs, h2, rfl⟩ := ser_seq.1 hv
      refine .seq fun i x hx => ?_
      obtain ⟨d, hd, hx⟩ := forall2_right h2 x (List.mem_of_getElem? hx)
      exact ih d hd h1 x hx
  | tuple hl _ ih =>
    intro hT v hv
    cases hT with
    | tuple h1 =>
      obtain ⟨vs, h2, rfl⟩ := ser_tuple.1 hv
      obtain ⟨l, h3⟩ := forall2_index h2
      refine .tuple fun i t x ht hx => ?_
      change vs[i]? = Option.some x at hx
      obtain ⟨d, hd⟩ := get_of_lt (show i < _ by have := lt_of_get hx; rw [← l] at this; exact this)
      exact ih i t d ht hd (h1 t (List.mem_of_getElem? ht)) x (h3 i d x hd hx)
  | tupleStruct hl _ ih =>
    intro hT v hv
    cases hT with
    | tupleStruct h1 =>
      obtain ⟨vs, h2, rfl⟩ := ser_tupleStruct.1 hv
      obtain ⟨l, h3⟩ := forall2_index h2
      refine .tupleStruct fun i t x ht hx => ?_
      change vs[i]? = Option.some x at hx
      obtain ⟨d, hd⟩ := get_of_lt (show i < _ by have := lt_of_get hx; rw [← l] at this; exact this)
      exact ih i t d ht hd (h1 t (List.mem_of_getElem? ht)) x (h3 i d x hd hx)
  | map hk hn _ ih =>
    intro hT v hv
    cases hT with
    | map hg h1 =>
      obtain ⟨kvs, h2, hn2, rfl⟩ := (ser_keyMap hg hk hn).1 hv
      refine .map fun k x hx => ?_
      rw [child_key_map] at hx
      obtain ⟨e, he, h3, h4⟩ := forall2_right h2 _ (hmGet_mem hx)
      exact ih e he h1 x h4
  | @struct fs ds hl _ ih =>
    intro hT v hv
    cases hT with
    | struct hn h1 =>
      obtain ⟨kvs, h2, rfl⟩ := ser_struct.1 hv
      have hmem : ∀ k x, child (.map (insAll [] kvs)) (.key k) = Option.some x →
          ∃ (i : Nat) (f : String × Ty) (d : String × Data), fs[i]? = Option.some f ∧ ds[i]? = Option.some d ∧ f.1 = k ∧ ser d.2 = .ok x := by
        intro k x hx
        rw [child_key_map] at hx
        have h3 := (mem_insAll kvs [] _ (hmGet_mem hx)).resolve_left (by simp)
        obtain ⟨i, hi⟩ := List.mem_iff_getElem?.1 h3
        obtain ⟨l, h4⟩ := forall2_index h2
        obtain ⟨d, hd⟩ := get_of_lt (show i < ds.length by have := lt_of_get hi; omega)
        have l0 : ds.length = fs.length := by simpa using congrArg List.length hl
        obtain ⟨f, hf⟩ := get_of_lt (show i < fs.length by have := lt_of_get hd; omega)
        have hnm := congrArg (fun l : List String => l[i]?) hl
        simp only [List.getElem?_map, hf, hd, Option.map_some, Option.some.injEq] at hnm
        obtain ⟨e1, e2⟩ := h4 i d _ hd hi
        exact ⟨i, f, d, hf, hd, by rw [← hnm, ← e1], e2⟩
      refine .struct (fun k x hx => ?_) fun k x t hx ht => ?_
      · obtain ⟨i, f, d, hf, -, rfl, -⟩ := hmem k x hx
        exact List.mem_map_of_mem (List.mem_of_getElem? hf)
      · obtain ⟨i, f, d, hf, hd, rfl, e⟩ := hmem k x hx
        have : f.2 = t := mem_unique hn (List.mem_of_getElem? hf) ht
        subst this
        exact ih i f d hf hd (h1 f (List.mem_of_getElem? hf)) x e
  | @ref n d _ ih => intro _ v hv; exact .ref (ih (hs n) v hv)

/-- **C117.** Settings that the old version of a program serialized and saved to a TOML file are read back by it, and by the new version with the
same content, whatever the new type adds being `None`. -/
theorem C117_saved {limit : Nat} {cd : Codec} (ht : TomlLike limit cd) (structs structs' : Nat → List (String × Ty))
    (hs : ∀ n, Survives (.struct (structs n))) (hsc : ∀ n, Concrete (.struct (structs n))) (hso : ∀ n, OmitsNone (.struct (structs n)))
    (hse : ∀ n, Evolves (.struct (structs n)) (.struct (structs' n)))
    (T T' : Ty) (hT : Survives T) (hTc : Concrete T) (hTo : OmitsNone T) (hTe : Evolves T T') (d : Data) (hd : HasType structs T d)
    (v : Value) (hv : ser d = .ok v) (hdepth : DepthBelow v limit) (w w' : World) (path : OsStr)
    (hok : (Layer.newFile (textHandler cd) path).writeValue w v = (.ok (), w'))
    (hread : ∀ bs code wr, w.disk (w.locate path) ≠ .file bs (some code) wr) :
    ∃ r, (Layer.newFile (textHandler cd) path).readValue w' = .ok r ∧
      ∃ k0, ∀ k, k0 ≤ k → ∃ dOld dNew, deAt structs k T r = .ok dOld ∧ DSame d dOld ∧
        deAt structs' k T' r = .ok dNew ∧ Carried (· = .none) dOld dNew := by
  obtain ⟨r, hr, k0, h⟩ := C84_typed ht structs hs hsc hso T hT hTc hTo d hd v hv hdepth w w' path hok hread
  obtain ⟨-, s, r', h1, hom, hus, hal, hur⟩ := toml_stored ht (uniqueKeys_ser d v hv) hdepth hok hread
  rw [hr] at h1
  cases h1
  have hk := onlyKnown_fewer (onlyKnown_ser hs hd hT v hv) r (fewer_of_alikeOmitting (alikeOmitting_of hom hal))
  refine ⟨r, hr, k0, fun k hk0 => ?_⟩
  obtain ⟨d1, e1, e2⟩ := h k hk0
  obtain ⟨d2, e3, e4⟩ := C117_upgrade structs structs' hse hTe k r hur hk d1 e1
  exact ⟨d1, d2, e1, e2, e3, e4⟩

/-! ## Through the layers -/

theorem child_merge {a b : Value} (hu : UniqueKeys b) {s : Step} {x : Value} (h : child (a.merge b) s = some x) :
    child a s = some x ∨ child b s = some x ∨ ∃ xa xb, child a s = some xa ∧ child b s = some xb ∧ x = xa.merge xb := by
  cases hm : a.isMap && b.isMap with
  | false =>
    have e : a.merge b = a ∨ a.merge b = b := by
      cases a <;> cases b <;> simp [Value.merge, Value.isMap] at hm ⊢
    rcases e with e | e <;> rw [e] at h
    · exact Or.inl h
    · exact Or.inr (Or.inl h)
  | true =>
    rw [Bool.and_eq_true] at hm
    obtain ⟨l, rfl⟩ : ∃ l, a = .map l := by cases a <;> first | exact ⟨_, rfl⟩ | cases hm.1
    obtain ⟨r, rfl⟩ : ∃ r, b = .map r := by cases b <;> first | exact ⟨_, rfl⟩ | cases hm.2
    rw [Value.merge] at h
    cases s with
    | idx i => cases h
    | key k =>
      rw [child_key_map] at h ⊢
      rw [child_key_map]
      rw [hmGet_mergeEntries r l (uniqueKeys_map.1 hu).1 k] at h
      cases hr : hmGet r k with
      | none => rw [hr] at h; exact Or.inl h
      | some xb =>
        rw [hr] at h
        cases hl : hmGet l k with
        | none => rw [hl] at h; exact Or.inr (Or.inl h)
        | some xa =>
          rw [hl] at h
          simp only at h
          split at h
          · exact Or.inr (Or.inr ⟨xa, xb, rfl, rfl, (Option.some.inj h).symm⟩)
          · exact Or.inr (Or.inl h)

theorem uniqueKeys_child {v x : Value} (hu : UniqueKeys v) {s : Step} (h : child v s = some x) : UniqueKeys x := by
  cases v with
  | array xs =>
    cases s with
    | idx i => exact uniqueKeys_array.1 hu x (List.mem_of_getElem? h)
    | key k => cases h
  | map m =>
    cases s with
    | idx i => cases h
    | key k => rw [child_key_map] at h; exact (uniqueKeys_map.1 hu).2 _ (hmGet_mem h)
  | _ => cases s <;> cases h

/-- Merging brings in no unknown keys. -/
theorem onlyKnown_merge {structs : Nat → List (String × Ty)} {T : Ty} {a : Value} (h : OnlyKnown structs T a) :
    ∀ b, UniqueKeys b → OnlyKnown structs T b → OnlyKnown structs T (a.merge b) := by
  induction h with
  | leaf ht => intro b _ _; exact .leaf ht
  | int => intro b _ _; exact .int
  | option _ ih =>
    intro b hu hb
    cases hb with
    | leaf h => simp at h
    | option hb => exact .option (ih b hu hb)
  | newtype _ ih =>
    intro b hu hb
    cases hb with
    | leaf h => simp at h
    | newtype hb => exact .newtype (ih b hu hb)
  | seq ha ih =>
    intro b hu hb
    cases hb with
    | leaf h => simp at h
    | seq hb =>
      refine .seq fun i x hx => ?_
      rcases child_merge hu hx with h | h | ⟨xa, xb, h1, h2, rfl⟩
      · exact ha i x h
      · exact hb i x h
      · exact ih i xa h1 xb (uniqueKeys_child hu h2) (hb i xb h2)
  | tuple ha ih =>
    intro b hu hb
    cases hb with
    | leaf h => simp at h
    | tuple hb =>
      refine .tuple fun i t x ht hx => ?_
      rcases child_merge hu hx with h | h | ⟨xa, xb, h1, h2, rfl⟩
      · exact ha i t x ht h
      · exact hb i t x ht h
      · exact ih i t xa ht h1 xb (uniqueKeys_child hu h2) (hb i t xb ht h2)
  | tupleStruct ha ih =>
    intro b hu hb
    cases hb with
    | leaf h => simp at h
    | tupleStruct hb =>
      refine .tupleStruct fun i t x ht hx => ?_
      rcases child_merge hu hx with h | h | ⟨xa, xb, h1, h2, rfl⟩
      · exact ha i t x ht h
      · exact hb i t x ht h
      · exact ih i t xa ht h1 xb (uniqueKeys_child hu h2) (hb i t xb ht h2)
  | map ha ih =>
    intro b hu hb
    cases hb with
    | leaf h => simp at h
    | map hb =>
      refine .map fun k x hx => ?_
      rcases child_merge hu hx with h | h | ⟨xa, xb, h1, h2, rfl⟩
      · exact ha k x h
      · exact hb k x h
      · exact ih k xa h1 xb (uniqueKeys_child hu h2) (hb k xb h2)
  | struct hn ha ih =>
    intro b hu hb
    cases hb with
    | leaf h => simp at h
    | struct hbn hb =>
      refine .struct (fun k x hx => ?_) fun k x t hx ht => ?_
      · rcases child_merge hu hx with h | h | ⟨xa, xb, h1, h2, rfl⟩
        · exact hn k x h
        · exact hbn k x h
        · exact hn k xa h1
      · rcases child_merge hu hx with h | h | ⟨xa, xb, h1, h2, rfl⟩
        · exact ha k x t h ht
        · exact hb k x t h ht
        · exact ih k xa t h1 ht xb (uniqueKeys_child hu h2) (hb k xb t h2 ht)
  | ref _ ih =>
    intro b hu hb
    cases hb with
    | leaf h => simp at h
    | ref hb => exact .ref (ih b hu hb)

/-- **C117.** The same through a whole configuration: if the old version of the program reads its settings from the layers, and no layer has keys
unknown to it, then the new version, on the same layers, reads its settings too, with the same content. -/
theorem C117_layers (b : Build) (fm : Formats) (calls : List RegCall) (w : World) (skip : Bool) (built : Value)
    (h : (register b fm calls).buildValue w skip = .ok built) (hp : ∀ e ∈ firsts (offers b fm calls), Proper e.2)
    (structs structs' : Nat → List (String × Ty)) (hse : ∀ n, Evolves (.struct (structs n)) (.struct (structs' n)))
    (fs fs' : List (String × Ty)) (hT : Evolves (.struct fs) (.struct fs'))
    (hk : ∀ e ∈ firsts (offers b fm calls), ∀ v, e.2.readValue w = .ok v → OnlyKnown structs (.struct fs) v)
    (k : Nat) (d : Data) (hd : deAt structs k (.struct fs) built = .ok d) :
    ∃ d', deAt structs' k (.struct fs') built = .ok d' ∧ Carried (· = .none) d d' := by
  refine C117_upgrade structs structs' hse hT k built ((C08_map b fm calls w skip built h).2 hp) ?_ d hd
  rw [build_ok h]
  have hr : ∀ x ∈ readables w (firsts (offers b fm calls)), UniqueKeys x ∧ OnlyKnown structs (.struct fs) x := by
    intro x hx
    obtain ⟨e, he, hx⟩ := List.mem_filterMap.1 hx
    cases hv : e.2.readValue w with
    | error er => rw [hv] at hx; cases hx
    | ok y =>
      rw [hv] at hx; cases hx
      exact ⟨hp e he w x hv, hk e he x hv⟩
  have h0 : OnlyKnown structs (.struct fs) Value.newMap := .struct (fun k x hx => by cases hx) fun k x t hx => by cases hx
  generalize readables w (firsts (offers b fm calls)) = xs at hr
  generalize Value.newMap = v0 at h0
  induction xs generalizing v0 with
  | nil => exact h0
  | cons x r ih =>
    have := hr x List.mem_cons_self
    exact ih (fun y hy => hr y (List.mem_cons_of_mem _ hy)) _ (onlyKnown_merge h0 x this.1 this.2)

/-! ## An upgrade -/

/-- Version 1 of some settings: a host, a port and a switch. -/
def exV1 : List (String × Ty) := [("host", .string), ("port", .int .u16), ("legacy", .bool)]
/-- Version 2: the host is optional, the port is wider, the switch is gone and there is a proxy. -/
def exV2 : List (String × Ty) := [("proxy", .option .string), ("port", .int .u32), ("host", .option .string)]

theorem exEvolves : Evolves (.struct exV1) (.struct exV2) := by
  refine .struct (by decide) (by decide) ?_ ?_
  · intro name t t' h h'
    simp only [exV1, exV2, List.mem_cons, Prod.mk.injEq, List.not_mem_nil, or_false] at h h'
    rcases h with ⟨rfl, rfl⟩ | ⟨rfl, rfl⟩ | ⟨rfl, rfl⟩ <;> rcases h' with ⟨h', rfl⟩ | ⟨h', rfl⟩ | ⟨h', rfl⟩ <;> first
      | exact absurd h' (by decide)
      | exact .wrap rfl (.leaf (by simp))
      | exact .int ⟨by decide, by decide⟩ (by decide) (by decide)
  · intro name t' h' hno
    simp only [exV2, List.mem_cons, Prod.mk.injEq, List.not_mem_nil, or_false] at h'
    rcases h' with ⟨rfl, rfl⟩ | ⟨rfl, rfl⟩ | ⟨rfl, rfl⟩
    · exact ⟨_, rfl⟩
    · exact absurd hno (by decide)
    · exact ⟨_, rfl⟩

def exV1Data : Data := .struct [("host", .str "h"), ("port", .int .u16 ⟨80, by decide⟩), ("legacy", .bool true)]
def exV1Value : Value := .map [("host", .string "h"), ("port", .uInteger ⟨80, by decide⟩), ("legacy", .boolean true)]

/-- Version 1 saves its settings to a TOML file; version 2 finds there the host, the port and no proxy. -/
example : ∃ w' r, (Layer.newFile (textHandler exToml) (os "/c.toml")).writeValue exDisk exV1Value = (.ok (), w') ∧
    (Layer.newFile (textHandler exToml) (os "/c.toml")).readValue w' = .ok r ∧
    ∃ k0, ∀ k, k0 ≤ k → ∃ dOld dNew, deAt (fun _ => []) k (.struct exV1) r = .ok dOld ∧ DSame exV1Data dOld ∧
        deAt (fun _ => []) k (.struct exV2) r = .ok dNew ∧ Carried (· = .none) dOld dNew := by
  have hholds : exV1Value.isMap = true ∧ TomlHolds exV1Value := by
    refine ⟨rfl, .map ?_⟩
    intro e he _
    simp only [List.mem_cons, List.not_mem_nil, or_false] at he
    rcases he with rfl | rfl | rfl
    · exact .string _
    · exact .uInteger (by decide)
    · exact .boolean _
  have hdepth : DepthBelow exV1Value 80 := by
    intro p hp
    rcases p with _ | ⟨s, p⟩
    · simp
    · cases s with
      | idx i => exact absurd rfl hp
      | key k =>
        rcases p with _ | ⟨s', p⟩
        · simp
        · exfalso
          apply hp
          unfold exV1Value
          rw [view_key_map]
          cases hk : hmGet _ k with
          | none => rfl
          | some x =>
            have := hmGet_mem hk
            simp only [List.mem_cons, Prod.mk.injEq, List.not_mem_nil, or_false] at this
            rcases this with ⟨-, rfl⟩ | ⟨-, rfl⟩ | ⟨-, rfl⟩ <;> cases s' <;> rfl
  obtain ⟨w', hok⟩ := (C84_write (exToml_like 80) exDisk (os "/c.toml") exV1Value).2 hholds _ rfl rfl
  have hempty : Survives (.struct []) ∧ Concrete (.struct []) ∧ OmitsNone (.struct []) ∧ Evolves (.struct []) (.struct []) :=
    ⟨.struct (by simp) (by simp), .struct (by simp), .struct (by simp) (by simp), .struct (by simp) (by simp) (by simp) (by simp)⟩
  have hty : HasType (fun _ => []) (.struct exV1) exV1Data := by
    refine .struct rfl ?_
    intro i f d hf hd
    rcases i with _ | _ | _ | i
    · cases hf; cases hd; exact .string _
    · cases hf; cases hd; exact .int _ _
    · cases hf; cases hd; exact .bool _
    · cases hf
  have hall : ∀ f ∈ exV1, Survives f.2 ∧ Concrete f.2 ∧ OmitsNone f.2 ∧ Nullable f.2 = false := by
    intro f hf
    simp only [exV1, List.mem_cons, List.not_mem_nil, or_false] at hf
    rcases hf with rfl | rfl | rfl
    · exact ⟨.string, .leaf (by simp), .leaf (by simp), rfl⟩
    · exact ⟨.int ⟨by decide, by decide⟩, .int _, .int _, rfl⟩
    · exact ⟨.bool, .leaf (by simp), .leaf (by simp), rfl⟩
  obtain ⟨r, h1, h2⟩ := C117_saved (exToml_like 80) (fun _ => []) (fun _ => []) (fun _ => hempty.1) (fun _ => hempty.2.1) (fun _ => hempty.2.2.1)
    (fun _ => hempty.2.2.2) (.struct exV1) (.struct exV2) (.struct (by decide) fun f hf => (hall f hf).1) (.struct fun f hf => (hall f hf).2.1)
    (.struct (fun f hf => Or.inl (hall f hf).2.2.2) fun f hf => (hall f hf).2.2.1) exEvolves exV1Data hty exV1Value (by rfl) hdepth exDisk w'
    (os "/c.toml") hok (by intro bs code wr h; cases h)
  exact ⟨w', r, hok, h1, h2⟩

/-- What it finds, in full. -/
example : deAt (fun _ => []) 0 (.struct exV2) exV1Value =
    .ok (.struct [("proxy", .none), ("port", .int .u32 ⟨80, by decide⟩), ("host", .some (.str "h"))]) := by rfl

theorem exV1_known {m : Entries} (h : ∀ k x, hmGet m k = some x → k ∈ exV1.map Prod.fst) : OnlyKnown (fun _ => []) (.struct exV1) (.map m) := by
  refine .struct (fun k x hx => h k x (by rw [child_key_map] at hx; exact hx)) fun k x t _ ht => ?_
  simp only [exV1, List.mem_cons, Prod.mk.injEq, List.not_mem_nil, or_false] at ht
  rcases ht with ⟨-, rfl⟩ | ⟨-, rfl⟩ | ⟨-, rfl⟩
  · exact .leaf (by simp)
  · exact .int
  · exact .leaf (by simp)

def exV1Calls : List RegCall := [.memory "default" exV1Value, .memory "user" (.map [("port", .string "8080")])]

/-- Defaults of version 1 under a user's port, which is a text: version 2 reads the same number. -/
example : ∃ built d', (register exB1 exFormats exV1Calls).buildValue exDisk false = .ok built ∧
    deAt (fun _ => []) 0 (.struct exV2) built = .ok d' ∧
    Carried (· = .none) (.struct [("host", .str "h"), ("port", .int .u16 ⟨8080, by decide⟩), ("legacy", .bool true)]) d' := by
  have hoff : firsts (offers exB1 exFormats exV1Calls) =
      [("default", .memory exV1Value), ("user", .memory (.map [("port", .string "8080")]))] := by rfl
  refine ⟨.map [("host", .string "h"), ("port", .string "8080"), ("legacy", .boolean true)], ?_⟩
  have hb : (register exB1 exFormats exV1Calls).buildValue exDisk false =
      .ok (.map [("host", .string "h"), ("port", .string "8080"), ("legacy", .boolean true)]) := by rfl
  obtain ⟨d', h1, h2⟩ := C117_layers exB1 exFormats exV1Calls exDisk false _ hb
    (by
      intro e he
      rw [hoff] at he
      simp only [List.mem_cons, List.not_mem_nil, or_false] at he
      rcases he with rfl | rfl <;> intro w v hv <;> cases hv <;> simp [exV1Value, UniqueKeys, UniqueKeysMap, UniqueKeysEntry])
    (fun _ => []) (fun _ => []) (fun _ => .struct (by simp) (by simp) (by simp) (by simp)) exV1 exV2 exEvolves
    (by
      intro e he v hv
      rw [hoff] at he
      simp only [List.mem_cons, List.not_mem_nil, or_false] at he
      rcases he with rfl | rfl <;> cases hv
      · refine exV1_known fun k x hx => ?_
        have := hmGet_mem hx
        simp only [List.mem_cons, Prod.mk.injEq, List.not_mem_nil, or_false] at this
        rcases this with ⟨rfl, -⟩ | ⟨rfl, -⟩ | ⟨rfl, -⟩ <;> decide
      · refine exV1_known fun k x hx => ?_
        have := hmGet_mem hx
        simp only [List.mem_cons, Prod.mk.injEq, List.not_mem_nil, or_false] at this
        rcases this with ⟨rfl, -⟩; decide)
    0 (.struct [("host", .str "h"), ("port", .int .u16 ⟨8080, by decide⟩), ("legacy", .bool true)]) (by rfl)
  exact ⟨d', hb, h1, h2⟩

/-- **C117.** A key that has the name of an added optional field stops the new version, whatever else the value holds, if what is under it is neither `None` nor
can be read as the field's type. -/
theorem C117_taken (structs' : Nat → List (String × Ty)) (fs' : List (String × Ty)) (hn : (fs'.map Prod.fst).Nodup) (name : String) (t : Ty)
    (hmem : (name, .option t) ∈ fs') (k : Nat) (v x : Value) (hu : UniqueKeys v) (hx : child v (.key name) = some x) (hne : x ≠ .none)
    (hno : ∀ d, deAt structs' k t x ≠ .ok d) : ∀ d, deAt structs' k (.struct fs') v ≠ .ok d := by
  intro d hd
  obtain ⟨m, rfl⟩ := struct_map hd
  rw [child_key_map] at hx
  obtain ⟨ds, rfl, h1⟩ := (de_struct_ok _ _ hn _ (uniqueKeys_map.1 hu).1 _).1 hd
  obtain ⟨i, hi⟩ := List.mem_iff_getElem?.1 hmem
  obtain ⟨l, h2⟩ := forall2_index h1
  obtain ⟨nd, hnd⟩ := get_of_lt (show i < ds.length by have := lt_of_get hi; omega)
  have h3 := (h2 i _ _ hi hnd).2
  simp only [hx] at h3
  cases x with
  | none => exact hne rfl
  | _ =>
    simp only [de, bind_eq_ok] at h3
    obtain ⟨d', h4, -⟩ := h3
    exact hno d' h4

/-- **C117.** That there is no key unknown to the old version is needed: one that happens to have the name of a new field, with something else in it,
stops the new version. -/
theorem C117_taken_name : (∃ d, deAt (fun _ => []) 0 (.struct exV1) (.map [("host", .string "h"), ("port", .uInteger ⟨80, by decide⟩),
      ("legacy", .boolean true), ("proxy", .array [])]) = .ok d) ∧
    ∀ d, deAt (fun _ => []) 0 (.struct exV2) (.map [("host", .string "h"), ("port", .uInteger ⟨80, by decide⟩),
      ("legacy", .boolean true), ("proxy", .array [])]) ≠ .ok d := by
  refine ⟨⟨exV1Data, rfl⟩, fun d h => ?_⟩
  have : deAt (fun _ => []) 0 (.struct exV2) (.map [("host", .string "h"), ("port", .uInteger ⟨80, by decide⟩),
      ("legacy", .boolean true), ("proxy", .array [])]) = .err (.conversionError "Array" "String" "conversion not supported") := by rfl
  rw [this] at h; cases h

/-- The missing proxy is there, but not a text. -/
example : ∀ d, deAt (fun _ => []) 0 (.struct exV2) (.map [("host", .string "h"), ("proxy", .array [])]) ≠ .ok d :=
  C117_taken (fun _ => []) exV2 (by decide) "proxy" .string (by simp [exV2]) 0 _ (.array []) (by simp [UniqueKeys, UniqueKeysMap, UniqueKeysEntry, UniqueKeysList])
    rfl (by simp) (fun d h => by
      have : deAt (fun _ => []) 0 .string (.array []) = .err (.conversionError "Array" "String" "conversion not supported") := by rfl
      rw [this] at h; cases h)

/-- **C114.** A `None` entry of an upper layer hides what any lower layer gives for an optional field: it is read as "not given". -/
theorem C114_none_hides_below (structs : Nat → List (String × Ty)) (fs : List (String × Ty)) (hn : (fs.map Prod.fst).Nodup) (name : String) (t : Ty)
    (hmem : (name, .option t) ∈ fs) (k : Nat) (a b : Value) (ha : UniqueKeys a) (hb : UniqueKeys b) (ham : a.isMap = true)
    (hnone : child b (.key name) = some .none) (d : Data) (hd : deAt structs k (.struct fs) (a.merge b) = .ok d) :
    ∃ ds, d = .struct ds ∧ (name, .none) ∈ ds ∧ ∀ x, (name, x) ∈ ds → x = .none := by
  have hu := uniqueKeys_merge ha hb
  cases b with
  | map mb =>
    cases a with
    | map ma =>
      rw [child_key_map] at hnone
      rw [Value.merge] at hd hu
      have hc : hmGet (mergeEntries ma mb) name = some .none := by
        rw [hmGet_mergeEntries mb ma (uniqueKeys_map.1 hb).1, hnone]
        cases hmGet ma name with
        | none => rfl
        | some x => simp [Value.isMap]
      obtain ⟨ds, rfl, h1⟩ := (de_struct_ok _ _ hn _ (uniqueKeys_map.1 hu).1 _).1 hd
      obtain ⟨e, h2⟩ := fields_of h1
      have only : ∀ x, (name, x) ∈ ds → x = .none := by
        intro x hx
        obtain ⟨t', ht', h4⟩ := h2 name x hx
        have : t' = .option t := mem_unique hn ht' hmem
        subst this
        rw [hc] at h4
        simp only [de, Outcome.ok.injEq] at h4
        exact h4.symm
      obtain ⟨y, hy, e1⟩ := List.mem_map.1 (show name ∈ ds.map Prod.fst by rw [e]; exact List.mem_map_of_mem (f := Prod.fst) hmem)
      obtain ⟨y1, y2⟩ := y
      simp only at e1
      subst e1
      refine ⟨ds, rfl, ?_, only⟩
      rw [← only y2 hy]; exact hy
    | _ => cases ham
  | _ => cases hnone

end Verif.Props
