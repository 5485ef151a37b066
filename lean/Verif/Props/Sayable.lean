import Verif.Spec.Sayable
import Verif.Props.Reread
import Verif.Props.Worst
import Verif.Props.Toml
import Verif.Props.Restore
/-!
# C140: which settings can be said at all
-/
namespace Verif.Props
open Verif Verif.Spec

/-! ## Values without `None` -/

theorem noNone_ne {v : Value} (h : NoNone v) : v ≠ .none := by
  rintro rfl; exact h [] rfl

theorem noNone_child {v x : Value} {s : Step} (h : NoNone v) (hx : child v s = some x) : NoNone x := by
  intro p hp
  apply h (s :: p)
  simp [view, hx, hp]

theorem noNone_of_children {v : Value} (h0 : v ≠ .none) (h : ∀ s x, child v s = some x → NoNone x) : NoNone v := by
  intro p hp
  cases p with
  | nil => cases v <;> simp [view, head] at hp; exact h0 rfl
  | cons s p =>
    rw [view] at hp
    cases hc : child v s with
    | none => rw [hc] at hp; cases hp
    | some x => rw [hc] at hp; exact h s x hc p hp

theorem noNone_array {xs : List Value} (h : ∀ x ∈ xs, NoNone x) : NoNone (.array xs) := by
  refine noNone_of_children (by simp) fun s x hx => ?_
  cases s with
  | key k => cases hx
  | idx i => exact h x (List.mem_of_getElem? hx)

theorem noNone_map {m : Entries} (h : ∀ e ∈ m, NoNone e.2) : NoNone (.map m) := by
  refine noNone_of_children (by simp) fun s x hx => ?_
  cases s with
  | key k => rw [child_key_map] at hx; exact h _ (hmGet_mem hx)
  | idx i => cases hx

/-! ## What is read can be said -/

/-- Nothing is read only from `None`. -/
theorem nothing_source {refs : Nat → Decoder} (hrefs : ∀ n v d, refs n v = .ok d → ¬ Nothing d) (T : Ty) : ∀ v d, UniqueKeys v → de refs T v = .ok d → Nothing d → v = .none := by
  have sc : ∀ {α : Type} {x : Outcome ModelError α} {f : α → Data} {d : Data},
      (x >>= fun a => Outcome.ok (f a)) = .ok d → (∀ a, ¬ Nothing (f a)) → ¬ Nothing d := by
    intro α x f d h hn
    obtain ⟨a, -, h⟩ := bind_eq_ok.1 h
    cases h; exact hn a
  induction T using Ty.ind with
  | bool => intro v d _ h hn; rw [de] at h; exact absurd hn (sc h fun a h => nomatch h)
  | int t => intro v d _ h hn; rw [de] at h; exact absurd hn (sc h fun a h => nomatch h)
  | f32 => intro v d _ h hn; rw [de] at h; exact absurd hn (sc h fun a h => nomatch h)
  | f64 => intro v d _ h hn; rw [de] at h; exact absurd hn (sc h fun a h => nomatch h)
  | char => intro v d _ h hn; rw [de] at h; exact absurd hn (sc h fun a h => nomatch h)
  | string => intro v d _ h hn; rw [de] at h; exact absurd hn (sc h fun a h => nomatch h)
  | unit => intro v d _ h hn; cases v <;> simp only [de, reduceCtorEq] at h; rfl
  | unitStruct => intro v d _ h hn; cases v <;> simp only [de, reduceCtorEq] at h; rfl
  | value =>
    intro v d hu h hn
    rw [de, deValue_ok v hu] at h
    cases h
    cases v <;> first | rfl | (simp only [Value.toData] at hn; cases hn)
  | bytes => intro v d _ h; rw [de] at h; cases h
  | enum => intro v d _ h; rw [de] at h; cases h
  | option t ih =>
    intro v d hu h hn
    by_cases hv : v = .none
    · exact hv
    · rw [de] at h
      · exact absurd hn (sc h fun a h => nomatch h)
      · exact fun e => absurd e hv
  | newtype t ih =>
    intro v d hu h hn
    rw [de] at h
    obtain ⟨x, hx, h⟩ := bind_eq_ok.1 h
    cases h
    cases hn with | newtype hn => exact ih v x hu hx hn
  | seq t ih =>
    intro v d _ h hn
    cases v <;> simp only [de, reduceCtorEq] at h
    exact absurd hn (sc h fun a h => nomatch h)
  | tuple ts ih =>
    intro v d _ h hn
    cases v <;> simp only [de, reduceCtorEq] at h
    exact absurd hn (sc h fun a h => nomatch h)
  | tupleStruct ts ih =>
    intro v d _ h hn
    cases v <;> simp only [de, reduceCtorEq] at h
    exact absurd hn (sc h fun a h => nomatch h)
  | map kt t ih =>
    intro v d _ h hn
    cases v <;> simp only [de, reduceCtorEq] at h
    exact absurd hn (sc h fun a h => nomatch h)
  | struct fs ih =>
    intro v d _ h hn
    rw [de] at h
    cases v <;> simp only [deStruct, reduceCtorEq] at h
    obtain ⟨a, -, h⟩ := bind_eq_ok.1 h
    exact absurd hn (sc h fun a h => nomatch h)
  | ref n => intro v d _ h hn; rw [de] at h; exact absurd hn (hrefs n v d h)

theorem refs_not_nothing {structs : Nat → List (String × Ty)} (k : Nat) : ∀ n v d, refsAt structs k n v = .ok d → ¬ Nothing d := by
  intro n v d h
  cases k with
  | zero => cases h
  | succ k =>
    rw [refsAt, de] at h
    cases v <;> simp only [deStruct, reduceCtorEq] at h
    obtain ⟨a, -, h⟩ := bind_eq_ok.1 h
    obtain ⟨a, -, h⟩ := bind_eq_ok.1 h
    cases h
    exact fun h => nomatch h

theorem sayable_de {nulls : Bool} {structs : Nat → List (String × Ty)} {refs : Nat → Decoder} (hnr : ∀ n v d, refs n v = .ok d → ¬ Nothing d)
    (hrefs : ∀ n v d, UniqueKeys v → (nulls = false → NoNone v) → refs n v = .ok d → Sayable nulls structs (.struct (structs n)) d) (t : Ty) :
    WellFormed t → ∀ v d, UniqueKeys v → (nulls = false → NoNone v) → de refs t v = .ok d → Sayable nulls structs t d := by
  have null : ∀ {v : Value}, (nulls = false → NoNone v) → v = .none → nulls = true := by
    rintro v h rfl
    cases nulls with
    | true => rfl
    | false => exact absurd rfl (noNone_ne (h rfl))
  have arr : ∀ {xs : List Value} {i : Nat} {x : Value}, (nulls = false → NoNone (.array xs)) → xs[i]? = some x → nulls = false → NoNone x :=
    fun h hx hn => noNone_child (h hn) (s := .idx _) hx
  have tup : ∀ {ts : List Ty}, (∀ t ∈ ts, ∀ v d, UniqueKeys v → (nulls = false → NoNone v) → de refs t v = .ok d → Sayable nulls structs t d) →
      ∀ {xs : List Value} {ds : List Data}, UniqueKeys (.array xs) → (nulls = false → NoNone (.array xs)) → ts.length ≤ xs.length →
      (∀ (i : Nat) t x y, ts[i]? = some t → xs[i]? = some x → ds[i]? = some y → de refs t x = .ok y) →
      ∀ (i : Nat) t d, ts[i]? = Option.some t → ds[i]? = Option.some d → Sayable nulls structs t d := by
    intro ts ih xs ds hu hz hl h i t d ht hd
    obtain ⟨x, hx⟩ := get_of_lt (show i < xs.length by have := lt_of_get ht; omega)
    exact ih t (List.mem_of_getElem? ht) x d (uniqueKeys_array.1 hu x (List.mem_of_getElem? hx)) (arr hz hx) (h i t x d ht hx hd)
  induction t using Ty.ind with
  | bool => intro _ v d _ _ h; rw [de] at h; obtain ⟨x, -, h⟩ := bind_eq_ok.1 h; cases h; exact .bool x
  | int t =>
    intro _ v d _ _ h
    rw [de] at h
    obtain ⟨x, hx, h⟩ := bind_eq_ok.1 h
    cases h
    refine .int x ⟨?_, ?_⟩ <;> rintro rfl <;> simp [deInt] at hx
  | f32 => intro _ v d _ _ h; rw [de] at h; obtain ⟨x, -, h⟩ := bind_eq_ok.1 h; cases h; exact .f32 _
  | f64 => intro _ v d _ _ h; rw [de] at h; obtain ⟨x, -, h⟩ := bind_eq_ok.1 h; cases h; exact .f64 x
  | char => intro _ v d _ _ h; rw [de] at h; obtain ⟨x, -, h⟩ := bind_eq_ok.1 h; cases h; exact .char x
  | string => intro _ v d _ _ h; rw [de] at h; obtain ⟨x, -, h⟩ := bind_eq_ok.1 h; cases h; exact .string x
  | unit =>
    intro _ v d _ hz h
    cases v <;> simp only [de, reduceCtorEq, Outcome.ok.injEq] at h
    rw [← h]; exact .unit (null hz rfl)
  | unitStruct =>
    intro _ v d _ hz h
    cases v <;> simp only [de, reduceCtorEq, Outcome.ok.injEq] at h
    rw [← h]; exact .unitStruct (null hz rfl)
  | value =>
    intro _ v d hu hz h
    rw [de, deValue_ok v hu] at h
    cases h
    exact .value hu hz
  | bytes | enum => intro _ v d _ _ h; rw [de] at h; cases h
  | option t ih =>
    intro hw v d hu hz h
    cases hw with
    | option hw =>
    by_cases hv : v = .none
    · subst hv
      simp only [de, Outcome.ok.injEq] at h
      rw [← h]; exact .none t (null hz rfl)
    · rw [de] at h
      · obtain ⟨x, hx, h⟩ := bind_eq_ok.1 h
        cases h
        exact .some (ih hw v x hu hz hx) fun hn => hv (nothing_source hnr t v x hu hx hn)
      · exact fun e => absurd e hv
  | newtype t ih =>
    intro hw v d hu hz h
    cases hw with
    | newtype hw =>
    rw [de] at h
    obtain ⟨x, hx, h⟩ := bind_eq_ok.1 h
    cases h
    exact .newtype (ih hw v x hu hz hx)
  | seq t ih =>
    intro hw v d hu hz h
    cases hw with
    | seq hw =>
    have : ∃ xs, v = .array xs := by cases v <;> simp only [de, reduceCtorEq] at h; exact ⟨_, rfl⟩
    obtain ⟨xs, rfl⟩ := this
    obtain ⟨ds, rfl, l1, h1⟩ := (de_seq_ok _ _ _ _).1 h
    refine .seq fun d hd => ?_
    obtain ⟨i, hi⟩ := List.mem_iff_getElem?.1 hd
    obtain ⟨x, hx⟩ := get_of_lt (show i < xs.length by have := lt_of_get hi; omega)
    exact ih hw x d (uniqueKeys_array.1 hu x (List.mem_of_getElem? hx)) (arr hz hx) (h1 i x d hx hi)
  | tuple ts ih =>
    intro hw v d hu hz h
    cases hw with
    | tuple hw =>
    have : ∃ xs, v = .array xs := by cases v <;> simp only [de, reduceCtorEq] at h; exact ⟨_, rfl⟩
    obtain ⟨xs, rfl⟩ := this
    obtain ⟨ds, rfl, l1, l2, h1⟩ := (de_tuple_ok _ _ _ _).1 h
    exact .tuple l2 (tup (fun t ht => ih t ht (hw t ht)) hu hz l1 h1)
  | tupleStruct ts ih =>
    intro hw v d hu hz h
    cases hw with
    | tupleStruct hw =>
    have : ∃ xs, v = .array xs := by cases v <;> simp only [de, reduceCtorEq] at h; exact ⟨_, rfl⟩
    obtain ⟨xs, rfl⟩ := this
    obtain ⟨ds, rfl, l1, l2, h1⟩ := (de_tupleStruct_ok _ _ _ _).1 h
    exact .tupleStruct l2 (tup (fun t ht => ih t ht (hw t ht)) hu hz l1 h1)
  | map kt t ih =>
    intro hw v d hu hz h
    cases hw with
    | map hw =>
    have : ∃ m, v = .map m := by cases v <;> simp only [de, reduceCtorEq] at h; exact ⟨_, rfl⟩
    obtain ⟨m, rfl⟩ := this
    rw [de] at h
    obtain ⟨es, hes, h⟩ := bind_eq_ok.1 h
    cases h
    obtain ⟨h1, h2, h3⟩ := mapLoop_get m [] es (by simp) hes
    have hum := uniqueKeys_map.1 hu
    refine .map (fun e he => ?_) h1 fun e he => ?_
    · rcases h2 e.1 (List.mem_map_of_mem he) with h | ⟨x, -, h⟩
      · simp at h
      · refine ⟨denotes_type h, ?_⟩
        cases kt with
        | int t => exact h.1
        | _ => trivial
    · rcases (h3 e.1 e.2).1 (keyGet_of_mem h1 he) with ⟨before, s, y, after, rfl, -, hy, -⟩ | ⟨-, h⟩
      · exact ih hw y e.2 (hum.2 (s, y) (by simp)) (fun hn => noNone_child (hz hn) (child_of_mem_map hum.1 (e := (s, y)) (by simp))) hy
      · cases h
  | struct fs ih =>
    intro hw v d hu hz h
    cases hw with
    | struct hn hw =>
    obtain ⟨m, rfl⟩ := struct_map h
    have hum := uniqueKeys_map.1 hu
    obtain ⟨ds, rfl, h1⟩ := (de_struct_ok _ _ hn _ hum.1 _).1 h
    obtain ⟨l1, h2⟩ := forall2_index h1
    refine .struct (fields_of h1).1 fun i f d hf hd hno => ?_
    have h3 := (h2 i f d hf hd).2
    cases hg : hmGet m f.1 with
    | none =>
      rw [hg] at h3
      obtain ⟨e, u, e2⟩ := missing_cases h3
      exact absurd ⟨e, u, e2⟩ hno
    | some x =>
      rw [hg] at h3
      exact ih f (List.mem_of_getElem? hf) (hw f (List.mem_of_getElem? hf)) x d.2 (hum.2 _ (hmGet_mem hg))
        (fun hn => noNone_child (hz hn) (by rw [child_key_map]; exact hg)) h3
  | ref n => intro _ v d hu hz h; rw [de] at h; exact .ref (hrefs n v d hu hz h)

/-! ## What can be said is read -/

theorem nested_pos {d : Data} {n : Nat} (h : NestedBelow d n) : 0 < n := by
  induction h with
  | some _ ih => exact ih
  | newtype _ ih => exact ih
  | _ => exact Nat.succ_pos _

theorem nested_flat {d : Data} {n : Nat} (h : NestedBelow d n) {v : Value} (hv : ∀ s, child v s = none) : DepthBelow v n := depth_mono (depth_leaf hv) (nested_pos h)

theorem depth_array {xs : List Value} {n : Nat} (h : ∀ x ∈ xs, DepthBelow x n) : DepthBelow (.array xs) (n + 1) :=
  depth_node fun s x hx => by
    cases s with
    | key k => cases hx
    | idx i => exact h x (List.mem_of_getElem? hx)

theorem depth_map {m : Entries} {n : Nat} (h : ∀ e ∈ m, DepthBelow (Prod.snd e) n) : DepthBelow (.map m) (n + 1) :=
  depth_node fun s x hx => by
    cases s with
    | key k => rw [child_key_map] at hx; exact h _ (hmGet_mem hx)
    | idx i => cases hx

theorem nested_value (v : Value) : ∀ n, NestedBelow v.toData n → DepthBelow v n := by
  induction v using Value.ind with
  | array xs ih =>
    intro n h
    rw [Value.toData, toDataList_eq] at h
    cases h with
    | flat h => cases h
    | seq h => exact depth_array fun x hx => ih x hx _ (h _ (List.mem_map_of_mem hx))
  | map m ih =>
    intro n h
    rw [Value.toData, toDataEntries_eq] at h
    cases h with
    | flat h => cases h
    | map h => exact depth_map fun e he => ih e he _ (h _ (List.mem_map_of_mem (f := fun e : String × Value => (Data.str e.1, e.2.toData)) he))
  | _ => intros; exact nested_flat (by assumption) fun s => by cases s <;> rfl

/-- A value that says the data. -/
structure Witness (nulls : Bool) (structs : Nat → List (String × Ty)) (T : Ty) (d : Data) (v : Value) (k : Nat) : Prop where
  unique : UniqueKeys v
  noNone : nulls = false → NoNone v
  toml : (∀ n, Concrete (.struct (structs n))) → Concrete T → nulls = false → TomlHolds v
  noClash : ¬ KeyClash structs T v
  depth : ∀ n, NestedBelow d n → DepthBelow v n
  reads : deAt structs k T v = .ok d

theorem Witness.more {nulls : Bool} {structs : Nat → List (String × Ty)} {T : Ty} {d : Data} {v : Value} {k j : Nat} (h : Witness nulls structs T d v k) (hj : k ≤ j) :
    Witness nulls structs T d v j := ⟨h.unique, h.noNone, h.toml, h.noClash, h.depth, reads_more h.reads hj⟩

theorem witness_list {nulls : Bool} {structs : Nat → List (String × Ty)} (ps : List (Ty × Data)) (h : ∀ p ∈ ps, ∃ v k, Witness nulls structs p.1 p.2 v k) :
    ∃ xs k, List.Forall₂ (fun p x => Witness nulls structs (Prod.fst p) p.2 x k) ps xs := by
  induction ps with
  | nil => exact ⟨[], 0, .nil⟩
  | cons p r ih =>
    obtain ⟨xs, k, h2⟩ := ih fun q hq => h q (by simp [hq])
    obtain ⟨x, j, hx⟩ := h p (by simp)
    exact ⟨x :: xs, max j k, .cons (hx.more (le_max_left _ _)) (h2.imp fun _ _ h => h.more (le_max_right _ _))⟩

theorem keyInsAll_fresh (kds : List (Key × Data)) : ∀ es : List (Key × Data), ((es ++ kds).map Prod.fst).Nodup → keyInsAll es kds = es ++ kds := by
  have one : ∀ (es : List (Key × Data)) (k : Key) (d : Data), k ∉ es.map Prod.fst → keyInsert es k d = es ++ [(k, d)] := by
    intro es k d
    induction es with
    | nil => intro _; rfl
    | cons e r ih =>
      intro h
      obtain ⟨k', d'⟩ := e
      simp only [List.map_cons, List.mem_cons, not_or] at h
      rw [keyInsert, if_neg (Ne.symm h.1), ih h.2]; rfl
  induction kds with
  | nil => intro es _; simp [keyInsAll]
  | cons e r ih =>
    intro es h
    have hn : e.1 ∉ es.map Prod.fst := by
      rw [List.map_append, List.nodup_append] at h
      intro he
      exact h.2.2 _ he _ (by simp) rfl
    have : keyInsAll es (e :: r) = keyInsAll (keyInsert es e.1 e.2) r := rfl
    rw [this, one es e.1 e.2 hn, ih _ (by simpa using h)]; simp

theorem noNone_leaf {v : Value} (h0 : v ≠ .none) (h : ∀ s, child v s = none) : NoNone v :=
  noNone_of_children h0 fun s x hx => by rw [h s] at hx; cases hx

theorem witness_leaf {nulls : Bool} {structs : Nat → List (String × Ty)} {T : Ty} {d : Data} {v : Value} (hu : UniqueKeys v) (h0 : v ≠ .none) (hl : ∀ s, child v s = none) (ht : TomlHolds v)
    (hc : ¬ KeyClash structs T v) (hr : deAt structs 0 T v = .ok d) : ∃ v k, Witness nulls structs T d v k :=
  ⟨v, 0, hu, fun _ => noNone_leaf h0 hl, fun _ _ _ => ht, hc, fun _ h => nested_flat h hl, hr⟩

theorem witness_struct {nulls : Bool} {structs : Nat → List (String × Ty)} : ∀ (fs : List (String × Ty)) (ds : List (String × Data)), (fs.map Prod.fst).Nodup →
    List.Forall₂ (fun f nd => nd.1 = Prod.fst f ∧ (¬ (nd.2 = .none ∧ ∃ t, f.2 = .option t) → ∃ v k, Witness nulls structs f.2 nd.2 v k)) fs ds →
    ∃ m k, (m.map Prod.fst).Nodup ∧ (∀ e ∈ m, ∃ f ∈ fs, ∃ nd ∈ ds, f.1 = e.1 ∧ Witness nulls structs f.2 (Prod.snd nd) (Prod.snd e) k) ∧
      List.Forall₂ (fun f nd => nd.1 = Prod.fst f ∧
        (match hmGet m f.1 with | some v => de (refsAt structs k) f.2 v | none => missingField f.1 f.2) = .ok nd.2) fs ds := by
  intro fs ds hn h
  induction h with
  | nil => exact ⟨[], 0, by simp, by simp, .nil⟩
  | @cons f nd fr dr h hr ih =>
    simp only [List.map_cons, List.nodup_cons] at hn
    obtain ⟨m, k, h1, h2, h3⟩ := ih hn.2
    have hfm : f.1 ∉ m.map Prod.fst := by
      intro hm
      obtain ⟨e, he, hef⟩ := List.mem_map.1 hm
      obtain ⟨g, hg, nd, _, hge, -⟩ := h2 e he
      exact hn.1 (by rw [← hef, ← hge]; exact List.mem_map_of_mem hg)
    by_cases ho : nd.2 = .none ∧ ∃ t, f.2 = .option t
    · refine ⟨m, k, h1, fun e he => ?_, .cons ⟨h.1, ?_⟩ h3⟩
      · obtain ⟨g, hg, nd', hnd, hge⟩ := h2 e he
        exact ⟨g, by simp [hg], nd', by simp [hnd], hge⟩
      · rw [hmGet_eq_none.2 hfm]
        obtain ⟨e1, t, e2⟩ := ho
        rw [e1, e2]; rfl
    · obtain ⟨x, j, hx⟩ := h.2 ho
      refine ⟨(f.1, x) :: m, max j k, by simp only [List.map_cons, List.nodup_cons]; exact ⟨hfm, h1⟩, fun e he => ?_, .cons ⟨h.1, ?_⟩ ?_⟩
      · rcases List.mem_cons.1 he with rfl | he
        · exact ⟨f, by simp, nd, by simp, rfl, hx.more (le_max_left _ _)⟩
        · obtain ⟨g, hg, nd', hnd, hge, hw⟩ := h2 e he
          exact ⟨g, by simp [hg], nd', by simp [hnd], hge, hw.more (le_max_right _ _)⟩
      · have := (hx.more (le_max_left j k)).reads
        rw [deAt] at this
        simpa [hmGet] using this
      · have hmem : ∀ g ∈ fr, g.1 ≠ f.1 := fun g hg e => hn.1 (by rw [← e]; exact List.mem_map_of_mem hg)
        clear ih hr h2 hn h
        induction h3 with
        | nil => exact .nil
        | @cons g nd' gr dr' h3 _ ih =>
          refine .cons ⟨h3.1, ?_⟩ (ih fun g hg => hmem g (by simp [hg]))
          have hne := hmem g (by simp)
          have h4 := h3.2
          rw [show hmGet ((f.1, x) :: m) g.1 = hmGet m g.1 by simp [hmGet, Ne.symm hne]]
          cases hg : hmGet m g.1 with
          | none => rw [hg] at h4; exact h4
          | some y =>
            rw [hg] at h4
            exact reads_more (k := k) (T := g.2) h4 (le_max_right _ _)

theorem say {nulls : Bool} {structs : Nat → List (String × Ty)} (hs : ∀ n, WellFormed (.struct (structs n))) {T : Ty} {d : Data} (h : Sayable nulls structs T d) :
    WellFormed T → ∃ v k, Witness nulls structs T d v k := by
  have none : ∀ {T : Ty} {d : Data}, nulls = true → deAt structs 0 T .none = .ok d → ∃ v k, Witness nulls structs T d v k := by
    intro T d hn hr
    refine ⟨.none, 0, by simp [UniqueKeys], fun h => ?_, fun _ _ h => ?_, fun hc => clash_none hc rfl, fun _ h => nested_flat h fun s => by cases s <;> rfl, hr⟩ <;> rw [hn] at h <;> cases h
  induction h with
  | bool b =>
    intro _
    exact witness_leaf (v := .boolean b) (by simp [UniqueKeys]) (by simp) (fun s => by cases s <;> rfl) (.boolean b) (fun h => nomatch h) rfl
  | @int t n ht =>
    intro _
    refine witness_leaf (v := .string (keyText (.int t n))) (by simp [UniqueKeys]) (by simp) (fun s => by cases s <;> rfl) (.string _) (fun h => nomatch h) ?_
    have := deKey_keyText (kt := .int t) ht (k := .int t n) ⟨n, rfl⟩
    rw [deKey] at this
    obtain ⟨a, ha, h⟩ := bind_eq_ok.1 this
    cases h
    rw [deAt, de, ha]; rfl
  | f32 x =>
    intro _
    refine witness_leaf (v := Value.ofF32 x) (by simp [UniqueKeys, Value.ofF32]) (by simp [Value.ofF32]) (fun s => by cases s <;> rfl) (.float _) (fun h => nomatch h) ?_
    rw [deAt, de]
    obtain ⟨z, h1, h2⟩ := (C24_scalar_roundtrip true (F64.ofF32 x) x "").2.2.2.1
    rw [h1]
    show Outcome.ok (Data.f32 (F32.ofF64 z)) = _
    rw [h2]
  | f64 x =>
    intro _
    exact witness_leaf (v := .float x) (by simp [UniqueKeys]) (by simp) (fun s => by cases s <;> rfl) (.float x) (fun h => nomatch h) rfl
  | char c =>
    intro _
    refine witness_leaf (v := .string (String.singleton c)) (by simp [UniqueKeys]) (by simp) (fun s => by cases s <;> rfl) (.string _) (fun h => nomatch h) ?_
    have := deKey_keyText (kt := .char) trivial (k := .char c) ⟨c, rfl⟩
    rw [deKey] at this
    obtain ⟨a, ha, h⟩ := bind_eq_ok.1 this
    cases h
    rw [deAt, de]
    rw [show keyText (.char c) = String.singleton c from rfl] at ha
    rw [ha]; rfl
  | string s =>
    intro _
    exact witness_leaf (v := .string s) (by simp [UniqueKeys]) (by simp) (fun s => by cases s <;> rfl) (.string s) (fun h => nomatch h) rfl
  | unit hn => intro _; exact none hn rfl
  | unitStruct hn => intro _; exact none hn rfl
  | none t hn => intro _; exact none hn rfl
  | @value v hu hz =>
    intro _
    refine ⟨v, 0, hu, hz, fun _ hc => ?_, (fun h => nomatch h), nested_value v, (by rw [deAt, de, deValue_ok v hu]; rfl)⟩
    cases hc with | leaf h => simp at h
  | @some t d _ hn ih =>
    intro hw
    cases hw with | option hw =>
    obtain ⟨v, k, w⟩ := ih hw
    have hv : v ≠ .none := by
      rintro rfl
      have := w.reads
      apply hn
      clear w ih hn hw
      rename_i hsay
      clear hsay
      revert d
      induction t using Ty.ind with
      | newtype t ih =>
        intro d h
        rw [deAt, de] at h
        obtain ⟨x, hx, h⟩ := bind_eq_ok.1 h
        cases h
        exact .newtype (ih hx)
      | option t _ => intro d h; simp only [deAt, de, Outcome.ok.injEq] at h; rw [← h]; exact .none
      | unit => intro d h; simp only [deAt, de, Outcome.ok.injEq] at h; rw [← h]; exact .unit
      | unitStruct => intro d h; simp only [deAt, de, Outcome.ok.injEq] at h; rw [← h]; exact .unitStruct
      | value => intro d h; rw [deAt, de, deValue_ok _ (by simp [UniqueKeys])] at h; cases h; exact .none
      | ref n => intro d h; cases k with
        | zero => cases h
        | succ k => rw [deAt, de, refsAt, de] at h; simp [deStruct] at h
      | int t => intro d h; rw [deAt, de] at h; obtain ⟨x, hx, -⟩ := bind_eq_ok.1 h; cases t <;> cases hx
      | struct fs _ => intro d h; rw [deAt, de] at h; simp [deStruct] at h
      | _ => intros; rename_i h; simp only [deAt, de] at h; cases h
    refine ⟨v, k, w.unique, w.noNone, fun a b => ?_, fun h => ?_, fun n h => ?_, ?_⟩
    · cases b with
      | leaf h => simp at h
      | option b => exact w.toml a b
    · cases h with | option h => exact w.noClash h
    · cases h with
      | flat h => cases h
      | some h => exact w.depth n h
    · have := w.reads
      rw [deAt] at this ⊢
      rw [de]
      · rw [this]; rfl
      · exact fun e => absurd e hv
  | newtype _ ih =>
    intro hw
    cases hw with | newtype hw =>
    obtain ⟨v, k, w⟩ := ih hw
    refine ⟨v, k, w.unique, w.noNone, fun a b => ?_, fun h => ?_, fun n h => ?_, ?_⟩
    · cases b with
      | leaf h => simp at h
      | newtype b => exact w.toml a b
    · cases h with | newtype h => exact w.noClash h
    · cases h with
      | flat h => cases h
      | newtype h => exact w.depth n h
    · have := w.reads
      rw [deAt] at this ⊢
      rw [de, this]; rfl
  | @seq t ds _ ih =>
    intro hw
    cases hw with | seq hw =>
    obtain ⟨xs, k, h⟩ := witness_list (ds.map fun d => (t, d)) (by
      intro p hp
      obtain ⟨d, hd, rfl⟩ := List.mem_map.1 hp
      exact ih d hd hw)
    rw [List.forall₂_map_left_iff] at h
    refine ⟨.array xs, k, uniqueKeys_array.2 fun x hx => ?_, fun hn => noNone_array fun x hx => ?_, fun a b hn => .array fun x hx => ?_, fun hc => ?_, fun n hd => ?_, ?_⟩
    · obtain ⟨_, _, w⟩ := forall2_right h x hx; exact w.unique
    · obtain ⟨_, _, w⟩ := forall2_right h x hx; exact w.noNone hn
    · obtain ⟨_, _, w⟩ := forall2_right h x hx
      cases b with
      | leaf h => simp at h
      | seq b => exact w.toml a b hn
    · cases hc with | seq hx hc =>
      obtain ⟨_, _, w⟩ := forall2_right h _ (List.mem_of_getElem? hx)
      exact w.noClash hc
    · cases hd with
      | flat h => cases h
      | seq hd => exact depth_array fun x hx => by obtain ⟨y, hy, w⟩ := forall2_right h x hx; exact w.depth _ (hd y hy)
    · rw [deAt, de_seq_ok]
      refine ⟨ds, rfl, h.length_eq, fun i x y hx hy => ?_⟩
      exact ((forall2_index h).2 i y x hy hx).reads
  | @tuple ts ds hl _ ih =>
    intro hw
    cases hw with | tuple hw =>
    obtain ⟨xs, k, h⟩ := witness_list (ts.zip ds) (by
      intro p hp
      obtain ⟨i, hi⟩ := List.mem_iff_getElem?.1 hp
      rw [List.getElem?_zip_eq_some] at hi
      exact ih i p.1 p.2 hi.1 hi.2 (hw _ (List.mem_of_getElem? hi.1)))
    obtain ⟨hlen, hi⟩ := forall2_index h
    have hzl : xs.length = ts.length := by rw [← hlen, List.length_zip, hl, min_self]
    have all : ∀ x ∈ xs, ∃ p : Ty × Data, p.1 ∈ ts ∧ p.2 ∈ ds ∧ Witness nulls structs p.1 p.2 x k := by
      intro x hx
      obtain ⟨p, hp, w⟩ := forall2_right h x hx
      exact ⟨p, (List.of_mem_zip hp).1, (List.of_mem_zip hp).2, w⟩
    have at' : ∀ (i : Nat) t x, ts[i]? = some t → xs[i]? = some x → ∃ d, ds[i]? = some d ∧ Witness nulls structs t d x k := by
      intro i t x ht hx
      obtain ⟨d, hd⟩ : ∃ d, ds[i]? = some d := by
        have := (List.getElem?_eq_some_iff.1 ht).1
        exact ⟨ds[i]'(by omega), List.getElem?_eq_getElem _⟩
      exact ⟨d, hd, hi i (t, d) x (by rw [List.getElem?_zip_eq_some]; exact ⟨ht, hd⟩) hx⟩
    refine ⟨.array xs, k, uniqueKeys_array.2 fun x hx => ?_, fun hn => noNone_array fun x hx => ?_, fun a b hn => .array fun x hx => ?_, fun hc => ?_, fun n hd => ?_, ?_⟩
    · obtain ⟨_, _, _, w⟩ := all x hx; exact w.unique
    · obtain ⟨_, _, _, w⟩ := all x hx; exact w.noNone hn
    · obtain ⟨_, hm, _, w⟩ := all x hx
      cases b with
      | leaf h => simp at h
      | tuple b => exact w.toml a (b _ hm) hn
    · cases hc with | tuple ht hx hc =>
      obtain ⟨_, _, w⟩ := at' _ _ _ ht hx
      exact w.noClash hc
    · cases hd with
      | flat h => cases h
      | tuple hd => exact depth_array fun x hx => by obtain ⟨p, _, hp, w⟩ := all x hx; exact w.depth _ (hd _ hp)
    · rw [deAt, de_tuple_ok]
      refine ⟨ds, rfl, hzl.ge, hl, fun i t x y ht hx hy => ?_⟩
      obtain ⟨d, hd, w⟩ := at' i t x ht hx
      rw [hd] at hy; cases hy
      exact w.reads
  | @tupleStruct ts ds hl _ ih =>
    intro hw
    cases hw with | tupleStruct hw =>
    obtain ⟨xs, k, h⟩ := witness_list (ts.zip ds) (by
      intro p hp
      obtain ⟨i, hi⟩ := List.mem_iff_getElem?.1 hp
      rw [List.getElem?_zip_eq_some] at hi
      exact ih i p.1 p.2 hi.1 hi.2 (hw _ (List.mem_of_getElem? hi.1)))
    obtain ⟨hlen, hi⟩ := forall2_index h
    have hzl : xs.length = ts.length := by rw [← hlen, List.length_zip, hl, min_self]
    have all : ∀ x ∈ xs, ∃ p : Ty × Data, p.1 ∈ ts ∧ p.2 ∈ ds ∧ Witness nulls structs p.1 p.2 x k := by
      intro x hx
      obtain ⟨p, hp, w⟩ := forall2_right h x hx
      exact ⟨p, (List.of_mem_zip hp).1, (List.of_mem_zip hp).2, w⟩
    have at' : ∀ (i : Nat) t x, ts[i]? = some t → xs[i]? = some x → ∃ d, ds[i]? = some d ∧ Witness nulls structs t d x k := by
      intro i t x ht hx
      obtain ⟨d, hd⟩ : ∃ d, ds[i]? = some d := by
        have := (List.getElem?_eq_some_iff.1 ht).1
        exact ⟨ds[i]'(by omega), List.getElem?_eq_getElem _⟩
      exact ⟨d, hd, hi i (t, d) x (by rw [List.getElem?_zip_eq_some]; exact ⟨ht, hd⟩) hx⟩
    refine ⟨.array xs, k, uniqueKeys_array.2 fun x hx => ?_, fun hn => noNone_array fun x hx => ?_, fun a b hn => .array fun x hx => ?_, fun hc => ?_, fun n hd => ?_, ?_⟩
    · obtain ⟨_, _, _, w⟩ := all x hx; exact w.unique
    · obtain ⟨_, _, _, w⟩ := all x hx; exact w.noNone hn
    · obtain ⟨_, hm, _, w⟩ := all x hx
      cases b with
      | leaf h => simp at h
      | tupleStruct b => exact w.toml a (b _ hm) hn
    · cases hc with | tupleStruct ht hx hc =>
      obtain ⟨_, _, w⟩ := at' _ _ _ ht hx
      exact w.noClash hc
    · cases hd with
      | flat h => cases h
      | tupleStruct hd => exact depth_array fun x hx => by obtain ⟨p, _, hp, w⟩ := all x hx; exact w.depth _ (hd _ hp)
    · rw [deAt, de_tupleStruct_ok]
      refine ⟨ds, rfl, hzl.ge, hl, fun i t x y ht hx hy => ?_⟩
      obtain ⟨d, hd, w⟩ := at' i t x ht hx
      rw [hd] at hy; cases hy
      exact w.reads
  | @map kt t es hk hn _ ih =>
    intro hw
    cases hw with | map hw =>
    obtain ⟨xs, k, h⟩ := witness_list (es.map fun e => (t, e.2)) (by
      intro p hp
      obtain ⟨e, he, rfl⟩ := List.mem_map.1 hp
      exact ih e he hw)
    rw [List.forall₂_map_left_iff] at h
    obtain ⟨hlen, hi⟩ := forall2_index h
    have key : ∀ e ∈ (es.zip xs).map (fun q => (keyText q.1.1, q.2)), ∃ q ∈ es, e.1 = keyText q.1 ∧ Witness nulls structs t q.2 e.2 k := by
      intro e he
      obtain ⟨q, hq, rfl⟩ := List.mem_map.1 he
      obtain ⟨i, hqi⟩ := List.mem_iff_getElem?.1 hq
      rw [List.getElem?_zip_eq_some] at hqi
      exact ⟨q.1, (List.of_mem_zip hq).1, rfl, hi i _ _ hqi.1 hqi.2⟩
    have hfst : ((es.zip xs).map (fun q => (keyText q.1.1, q.2))).map Prod.fst = es.map fun e => keyText e.1 := by
      rw [List.map_map, show (Prod.fst ∘ fun q : (Key × Data) × Value => (keyText q.1.1, q.2)) = (fun e => keyText e.1) ∘ Prod.fst from rfl,
        ← List.map_map, List.map_fst_zip hlen.le]
    have hnd : (((es.zip xs).map (fun q => (keyText q.1.1, q.2))).map Prod.fst).Nodup := by
      rw [hfst, show (fun e : Key × Data => keyText e.1) = keyText ∘ Prod.fst from rfl, ← List.map_map]
      refine hn.map_on ?_
      intro x hx y hy hxy
      obtain ⟨e, he, rfl⟩ := List.mem_map.1 hx
      obtain ⟨e', he', rfl⟩ := List.mem_map.1 hy
      exact keyText_inj (hk e he).2 (hk e he).1 (hk e' he').1 hxy
    have keyOf : ∀ a, child (.map ((es.zip xs).map (fun q => (keyText q.1.1, q.2)))) (.key a) ≠ Option.none → ∃ q ∈ es, a = keyText q.1 := by
      intro a ha
      rw [child_key_map] at ha
      cases hg : hmGet ((es.zip xs).map (fun q => (keyText q.1.1, q.2))) a with
      | none => exact absurd hg ha
      | some x => obtain ⟨q, hq, h1, -⟩ := key _ (hmGet_mem hg); exact ⟨q, hq, h1⟩
    refine ⟨.map ((es.zip xs).map (fun q => (keyText q.1.1, q.2))), k, uniqueKeys_map.2 ⟨hnd, fun e he => ?_⟩, fun hn => noNone_map fun e he => ?_,
      fun a b hn => .map fun e he _ => ?_, fun hc => ?_, fun n hd => ?_, ?_⟩
    · obtain ⟨_, _, _, w⟩ := key e he; exact w.unique
    · obtain ⟨_, _, _, w⟩ := key e he; exact w.noNone hn
    · obtain ⟨_, _, _, w⟩ := key e he
      cases b with
      | leaf h => simp at h
      | map b => exact w.toml a b hn
    · cases hc with
      | here hne hsame ha hb =>
        obtain ⟨q, hq, rfl⟩ := keyOf _ ha
        obtain ⟨q', hq', rfl⟩ := keyOf _ hb
        exact hne (by rw [sameKey_keyText (hk q hq).2 (hk q hq).1 (hk q' hq').1 hsame])
      | entry hx hc =>
        rw [child_key_map] at hx
        obtain ⟨_, _, _, w⟩ := key _ (hmGet_mem hx)
        exact w.noClash hc
    · cases hd with
      | flat h => cases h
      | map hd =>
        refine depth_map fun e he => ?_
        obtain ⟨q, hq, _, w⟩ := key e he
        exact w.depth _ (hd _ (List.mem_map_of_mem (f := fun e : Key × Data => (e.1.toData, e.2)) hq))
    · rw [deAt, de]
      have : deMapLoop kt (de (refsAt structs k) t) [] ((es.zip xs).map (fun q => (keyText q.1.1, q.2))) = .ok es := by
        rw [deMapLoop_ok]
        refine ⟨es, ?_, by rw [keyInsAll_fresh es [] (by simpa using hn)]; rfl⟩
        rw [List.forall₂_map_left_iff]
        clear hnd hfst key keyOf ih hlen hi hn
        rename_i hsay
        clear hsay
        induction h with
        | nil => exact .nil
        | @cons e x er xr w _ ih =>
          exact .cons ⟨deKey_keyText (hk e (by simp)).2 (hk e (by simp)).1, w.reads⟩ (ih (fun e he => hk e (by simp [he])) )
      rw [this]; rfl
  | @struct fs ds hl _ ih =>
    intro hw
    cases hw with | struct hn hw =>
    have hlen : ds.length = fs.length := by simpa using congrArg List.length hl
    obtain ⟨m, k, h1, h2, h3⟩ := witness_struct (nulls := nulls) (structs := structs) fs ds hn (by
      rw [List.forall₂_iff_get]
      refine ⟨hlen.symm, fun i h1 h2 => ⟨?_, fun hno => ?_⟩⟩
      · have := congrArg (fun l : List String => l[i]?) hl
        simpa [List.getElem?_eq_getElem h1, List.getElem?_eq_getElem h2] using this
      · exact ih i _ _ (List.getElem?_eq_getElem h1) (List.getElem?_eq_getElem h2) hno (hw _ (List.get_mem _ _)))
    refine ⟨.map m, k, uniqueKeys_map.2 ⟨h1, fun e he => ?_⟩, fun hn => noNone_map fun e he => ?_, fun a b hn => .map fun e he _ => ?_, fun hc => ?_, fun n hd => ?_, ?_⟩
    · obtain ⟨_, _, _, _, _, w⟩ := h2 e he; exact w.unique
    · obtain ⟨_, _, _, _, _, w⟩ := h2 e he; exact w.noNone hn
    · obtain ⟨_, hf, _, _, _, w⟩ := h2 e he
      cases b with
      | leaf h => simp at h
      | struct b => exact w.toml a (b _ hf) hn
    · cases hc with | @struct _ _ name u x hm hx hc =>
      rw [child_key_map] at hx
      obtain ⟨f, hf, _, _, hfe, w⟩ := h2 _ (hmGet_mem hx)
      have : f = (name, u) := List.inj_on_of_nodup_map hn hf hm hfe
      subst this
      exact w.noClash hc
    · cases hd with
      | flat h => cases h
      | struct hd => exact depth_map fun e he => by obtain ⟨_, _, nd, hnd, _, w⟩ := h2 e he; exact w.depth _ (hd _ hnd)
    · rw [deAt, de_struct_ok _ _ hn _ h1]
      exact ⟨ds, rfl, h3⟩
  | ref _ ih =>
    intro _
    obtain ⟨v, k, w⟩ := ih (hs _)
    refine ⟨v, k + 1, w.unique, w.noNone, fun a _ => w.toml a (a _), fun h => ?_, w.depth, ?_⟩
    · cases h with | ref h => exact w.noClash h
    · rw [deAt, de, refsAt]; exact w.reads

theorem sayable_refs {nulls : Bool} {structs : Nat → List (String × Ty)} (hs : ∀ n, WellFormed (.struct (structs n))) (k : Nat) :
    ∀ n v d, UniqueKeys v → (nulls = false → NoNone v) → refsAt structs k n v = .ok d → Sayable nulls structs (.struct (structs n)) d := by
  induction k with
  | zero => intro n v d _ _ h; cases h
  | succ k ih =>
    intro n v d hu hz h
    rw [refsAt] at h
    exact sayable_de (refs_not_nothing k) ih (.struct (structs n)) (hs n) v d hu hz h

/-! ## The theorems -/

/-- **C140.** Some value is read as this data of the type (with a stack that is large enough) exactly if the data can be said; and likewise for values that are nowhere `None`. -/
theorem C140_say (nulls : Bool) (structs : Nat → List (String × Ty)) (hs : ∀ n, WellFormed (.struct (structs n))) (T : Ty) (hT : WellFormed T) (d : Data) :
    (∃ v k, UniqueKeys v ∧ (nulls = false → NoNone v) ∧ deAt structs k T v = .ok d) ↔ Sayable nulls structs T d := by
  constructor
  · rintro ⟨v, k, hu, hz, h⟩
    exact sayable_de (refs_not_nothing k) (sayable_refs hs k) T hT v d hu hz h
  · intro h
    obtain ⟨v, k, w⟩ := say hs h hT
    exact ⟨v, k, w.unique, w.noNone, w.reads⟩

theorem noNone_env {w : World} {pre : String} {v : Value} (h : (Layer.newEnvironment pre).readValue w = .ok v) : NoNone v := by
  by_cases hne : trimStr pre = ""
  · simp only [Layer.newEnvironment, Layer.readValue, Layer.readEnv, hne] at h
    rw [if_pos (by decide)] at h
    cases h
  · obtain ⟨m, hm, hu, h1, h2⟩ := env_entry (w := w) ((trimStr_iff pre _).1 rfl) hne
    rw [hm] at h; cases h
    refine noNone_map fun e he => ?_
    have hg := hmGet_of_mem' (uniqueKeys_map.1 hu).1 he
    by_cases hk : ∃ s, EnvGives w.env (trimStr pre) e.1 s
    · obtain ⟨s, hs⟩ := hk
      rw [h1 _ _ hs] at hg
      rw [← Option.some.inj hg]
      exact noNone_leaf (by simp) fun s => by cases s <;> rfl
    · rw [h2 _ fun s hs => hk ⟨s, hs⟩] at hg; cases hg

theorem noNone_visit {doc : Doc} {v : Value} (h : visit doc = .ok v) (hn : NullFree doc) : NoNone v := by
  intro p hp
  obtain ⟨x, hx, hs⟩ := (C65_content doc v h p _).1 hp
  cases hs with
  | none => exact (hn p _ hx).1 rfl
  | unit => exact (hn p _ hx).2 rfl

/-- **C140.** Whatever a program reads from its configuration can be said; and if its format has no nulls and its memory layers hold no `None`, it can be said without. -/
theorem C140_only (nulls : Bool) (b : Build) (fm : Formats) (calls : List RegCall) (hb : ∀ c ∈ calls, c.BuiltIn)
    (hm : ∀ n x, RegCall.memory n x ∈ calls → UniqueKeys x ∧ (nulls = false → NoNone x))
    (hc : ∀ n p cd, RegCall.file n p ∈ calls → FormatOf b fm p cd → nulls = false → NullFreeFormat cd)
    (w : World) (skip : Bool) (v : Value) (h : (register b fm calls).buildValue w skip = .ok v)
    (structs : Nat → List (String × Ty)) (hs : ∀ n, WellFormed (.struct (structs n))) (T : Ty) (hT : WellFormed T) (k : Nat) (d : Data)
    (hd : deAt structs k T v = .ok d) : Sayable nulls structs T d := by
  have hp : ∀ e ∈ firsts (offers b fm calls), Proper e.2 := by
    intro e he
    obtain ⟨c, hc, ho⟩ := List.mem_filterMap.1 (mem_firsts he)
    exact C08_builtin_proper b fm c e (hb c hc) (fun n x hx => (hm n x (hx ▸ hc)).1) ho
  refine (C140_say nulls structs hs T hT d).1 ⟨v, k, (C08_map b fm calls w skip v h).2 hp, fun hn => ?_, hd⟩
  have hr : ∀ e ∈ firsts (offers b fm calls), ∀ x, e.2.readValue w = .ok x → NoNone x := by
    intro e he x hx
    obtain ⟨c, hcm, ho⟩ := List.mem_filterMap.1 (mem_firsts he)
    cases c with
    | layer => exact (hb _ hcm).elim
    | memory n y => simp only [RegCall.offer, Option.some.injEq] at ho; subst ho; cases hx; exact (hm n _ hcm).2 hn
    | environment n pre => simp only [RegCall.offer, Option.some.injEq] at ho; subst ho; exact noNone_env hx
    | file n p =>
      obtain ⟨cd, hf, rfl⟩ : ∃ cd, FormatOf b fm p cd ∧ e = (n, .file (textHandler cd) p) := by
        simp only [RegCall.offer] at ho
        split at ho
        · rename_i h; exact ⟨_, Or.inl ⟨h.2, h.1, rfl⟩, (Option.some.inj ho).symm⟩
        · split at ho
          · rename_i h; exact ⟨_, Or.inr ⟨h.2, h.1, rfl⟩, (Option.some.inj ho).symm⟩
          · cases ho
      cases he : w.pathExists p with
      | false => rw [show (Layer.file (textHandler cd) p).readValue w = .ok (.map []) from C56_missing _ w p he] at hx; cases hx; exact noNone_map (by simp)
      | true =>
        obtain ⟨text, doc, we, -, h2, h3⟩ := (C56_content cd w p he x).1 hx
        exact noNone_visit h3 (hc n p cd hcm hf hn text doc h2)
  intro p hpn
  rcases C07_cases w (firsts (offers b fm calls)) p with hno | ⟨before, e, after, x, hls, hx, hxm, hsil, hlast⟩
  · rw [C07_nobody_speaks b fm calls w skip v h hp p hno] at hpn
    split at hpn <;> cases hpn
  · rw [C07_last_speaker b fm calls w skip v h hp p before e after x hls hx hxm hsil hlast] at hpn
    exact hr e (by rw [hls]; simp) x hx p hpn

theorem struct_get {refs : Nat → Decoder} {fs : List (String × Ty)} (hf : (fs.map Prod.fst).Nodup) {m m' : Entries} (hm : (m.map Prod.fst).Nodup) (hm' : (m'.map Prod.fst).Nodup)
    (h : ∀ k, hmGet m' k = hmGet m k) {d : Data} (hd : de refs (.struct fs) (.map m) = .ok d) : de refs (.struct fs) (.map m') = .ok d := by
  rw [de_struct_ok _ _ hf _ hm] at hd
  rw [de_struct_ok _ _ hf _ hm']
  obtain ⟨ds, e, h1⟩ := hd
  refine ⟨ds, e, h1.imp fun f nd h2 => ?_⟩
  rw [h f.1]; exact h2

/-- **C140.** Conversely, for every setting that can be said there is a value that says it from the only memory layer of a program. -/
theorem C140_memory (structs : Nat → List (String × Ty)) (hs : ∀ n, WellFormed (.struct (structs n))) (fs : List (String × Ty)) (hT : WellFormed (.struct fs)) (d : Data)
    (hd : Sayable true structs (.struct fs) d) :
    ∃ x, UniqueKeys x ∧ ∀ (b : Build) (fm : Formats) (name : String) (w : World) (skip : Bool),
      ∃ v k, (register b fm [.memory name x]).buildValue w skip = .ok v ∧ deAt structs k (.struct fs) v = .ok d := by
  obtain ⟨x, k, hw⟩ := say hs hd hT
  cases hT with | struct hn _ =>
  obtain ⟨m, rfl⟩ := struct_map hw.reads
  refine ⟨.map m, hw.unique, fun b fm name w skip => ⟨_, k, C14_add_last b fm [] (.memory name (.map m)) w skip (name, .memory (.map m)) (.map m) (.map []) rfl
    (by simp [offers]) rfl rfl, ?_⟩⟩
  have hmu := (uniqueKeys_map.1 hw.unique).1
  rw [merge_map_map]
  refine struct_get hn hmu ?_ ?_ hw.reads
  · have := uniqueKeys_merge (a := .map []) (b := .map m) (uniqueKeys_map.2 ⟨by simp, by simp⟩) hw.unique
    rw [merge_map_map] at this
    exact (uniqueKeys_map.1 this).1
  · intro k
    rw [hmGet_mergeEntries m _ hmu]
    cases hg : hmGet m k <;> simp

/-- **C140.** And every setting without `None` that can be said without nulls, and is of a type that names no `Value`, can be written in TOML: there is a map such that any
format like TOML, if the settings are nested less deep than its limit, has a text for it; and a program whose only layer is a file with this text reads the setting. -/
theorem C140_file (structs : Nat → List (String × Ty)) (hs : ∀ n, WellFormed (.struct (structs n))) (hsc : ∀ n, Concrete (.struct (structs n)))
    (fs : List (String × Ty)) (hT : WellFormed (.struct fs)) (hTc : Concrete (.struct fs)) (d : Data) (hd : Sayable false structs (.struct fs) d) :
    ∃ x, UniqueKeys x ∧ ∀ (limit : Nat) (cd : Codec), TomlLike limit cd → NestedBelow d limit → ∃ text, cd.print x.toData = .ok text ∧
      ∀ (b : Build) (fm : Formats) (name : String) (p : OsStr) (w : World) (skip : Bool) (writeErr : Option Nat), FormatOf b fm p cd →
        w.disk (w.locate p) = .file (utf8 text) none writeErr →
        ∃ v k d', (register b fm [.file name p]).buildValue w skip = .ok v ∧ deAt structs k (.struct fs) v = .ok d' ∧ DSame d d' := by
  obtain ⟨x, k, hw⟩ := say hs hd hT
  obtain ⟨m, rfl⟩ := struct_map hw.reads
  refine ⟨.map m, hw.unique, fun limit cd htl hdepth => ?_⟩
  obtain ⟨text, ht⟩ := (htl.prints (.map m)).2 ⟨rfl, hw.toml hsc hTc rfl⟩
  refine ⟨text, ht, fun b fm name p w skip we hf hdisk => ?_⟩
  obtain ⟨doc, s, h1, h2, h3, h4⟩ := htl.parses (.map m) text hw.unique (hw.depth _ hdepth) ht
  obtain ⟨r, h5, h6, h7⟩ := C66_reads s h4 doc h2
  have hal : Alike (.map m) r := by
    intro q
    rw [← (h3 q).2 fun hne => hw.noNone rfl q hne.2]
    exact h6 q
  obtain ⟨e1, e2⟩ := C66_deserialize structs hs hsc (.struct fs) hT hTc k (.map m) r hw.unique h7 hal hw.noClash
  obtain ⟨d', hd'⟩ := e1.1 ⟨d, hw.reads⟩
  have he : w.pathExists p = true := by simp [World.pathExists, hdisk]
  have hr := (C56_content cd w p he r).2 ⟨text, doc, we, hdisk, h1, h5⟩
  have hb := C14_add_last b fm [] (.file name p) w skip (name, .file (textHandler cd) p) _ (.map []) (TextFmt.offer hf name) (by simp [offers]) hr rfl
  cases hT with | struct hn _ =>
  obtain ⟨mr, rfl⟩ := struct_map hd'
  refine ⟨_, k, d', hb, ?_, e2 d d' hw.reads hd'⟩
  have hmu := (uniqueKeys_map.1 h7).1
  rw [merge_map_map]
  refine struct_get hn hmu ?_ ?_ hd'
  · have := uniqueKeys_merge (a := .map []) (b := .map mr) (uniqueKeys_map.2 ⟨by simp, by simp⟩) h7
    rw [merge_map_map] at this
    exact (uniqueKeys_map.1 this).1
  · intro k
    rw [hmGet_mergeEntries mr _ hmu]
    cases hg : hmGet mr k <;> simp

/-- **C140.** What no configuration says: a `Some` around nothing; and, without nulls, a unit, or a `None` in a list or as the value of a map. -/
theorem C140_gaps (structs : Nat → List (String × Ty)) (hs : ∀ n, WellFormed (.struct (structs n))) (t : Ty) (ht : WellFormed t) (v : Value) (hv : UniqueKeys v) (k : Nat) :
    (∀ d, Nothing d → deAt structs k (.option t) v ≠ .ok (.some d)) ∧
    (NoNone v → deAt structs k .unit v ≠ .ok .unit ∧
      (∀ ds, deAt structs k (.seq (.option t)) v = .ok (.seq ds) → Data.none ∉ ds) ∧
      (∀ kt es, deAt structs k (.map kt (.option t)) v = .ok (.map es) → ∀ e ∈ es, e.2 ≠ Data.none)) := by
  have key : NoNone v → ∀ T d, WellFormed T → deAt structs k T v = .ok d → Sayable false structs T d :=
    fun hz T d hw h => (C140_say false structs hs T hw d).1 ⟨v, k, hv, fun _ => hz, h⟩
  refine ⟨fun d hn h => ?_, fun hz => ⟨fun h => ?_, fun ds h hm => ?_, fun kt es h e he hn => ?_⟩⟩
  · have := (C140_say true structs hs (.option t) (.option ht) _).1 ⟨v, k, hv, (fun h => nomatch h), h⟩
    cases this with | some _ h => exact h hn
  · have := key hz _ _ .unit h
    cases this with | unit h => cases h
  · have := key hz _ _ (.seq (.option ht)) h
    cases this with | seq h =>
    have := h _ hm
    cases this with | none _ h => cases h
  · have := key hz _ _ (.map (.option ht)) h
    cases this with | @map _ _ es' _ _ hx =>
    obtain ⟨e', he', rfl⟩ := List.mem_map.1 he
    have := hx _ he'
    generalize e'.2 = x at this hn
    subst hn
    cases this with | none _ h => cases h

/-! ## Examples -/

/-- Settings with a port, an optional name and a list of optional numbers. -/
def exSayTy : List (String × Ty) := [("port", .int .u16), ("name", .option .string), ("tags", .seq (.option (.int .u8)))]

theorem exSayTy_wf : WellFormed (.struct exSayTy) := by
  refine .struct (by decide) fun f hf => ?_
  simp only [exSayTy, List.mem_cons, List.not_mem_nil, or_false] at hf
  rcases hf with rfl | rfl | rfl
  · exact .int _
  · exact .option .string
  · exact .seq (.option (.int _))

theorem exSayTy_concrete : Concrete (.struct exSayTy) := by
  refine .struct fun f hf => ?_
  simp only [exSayTy, List.mem_cons, List.not_mem_nil, or_false] at hf
  rcases hf with rfl | rfl | rfl
  · exact .int _
  · exact .option (.leaf (by simp))
  · exact .seq (.option (.int _))

def exSayD (tag : Data) : Data := .struct [("port", .int .u16 ⟨80, by decide⟩), ("name", .none), ("tags", .seq [tag])]

theorem exSay (nulls : Bool) (tag : Data) (h : Sayable nulls exNoStructs (.option (.int .u8)) tag) : Sayable nulls exNoStructs (.struct exSayTy) (exSayD tag) := by
  refine .struct rfl fun i f d hf hd hno => ?_
  match i, hf, hd with
  | 0, rfl, rfl => exact .int _ (by simp [Upto64])
  | 1, rfl, rfl => exact absurd ⟨rfl, _, rfl⟩ hno
  | 2, rfl, rfl => exact .seq fun d hd => by rw [List.mem_singleton] at hd; subst hd; exact h

/-- A `None` in the list of tags: some value says it, but none that is free of `None`. -/
example : (∃ v k, UniqueKeys v ∧ deAt exNoStructs k (.struct exSayTy) v = .ok (exSayD .none)) ∧
    ¬ ∃ v k, UniqueKeys v ∧ NoNone v ∧ deAt exNoStructs k (.struct exSayTy) v = .ok (exSayD .none) := by
  constructor
  · obtain ⟨v, k, h1, -, h2⟩ := (C140_say true exNoStructs exNoStructs_wf _ exSayTy_wf (exSayD .none)).2 (exSay true .none (.none _ rfl))
    exact ⟨v, k, h1, h2⟩
  · rintro ⟨v, k, h1, h2, h3⟩
    have := (C140_say false exNoStructs exNoStructs_wf _ exSayTy_wf (exSayD .none)).1 ⟨v, k, h1, fun _ => h2, h3⟩
    cases this with | struct _ h =>
    have := h 2 ("tags", .seq (.option (.int .u8))) ("tags", .seq [.none]) rfl rfl (by simp)
    cases this with | seq h =>
    have := h .none (by simp)
    cases this with | none _ h => cases h

/-- With a tag, a memory layer says it, and so does a TOML file. -/
example (b : Build) (fm : Formats) (w : World) : ∃ x v k, (register b fm [.memory "d" x]).buildValue w false = .ok v ∧
    deAt exNoStructs k (.struct exSayTy) v = .ok (exSayD (.some (.int .u8 ⟨7, by decide⟩))) := by
  obtain ⟨x, -, h⟩ := C140_memory exNoStructs exNoStructs_wf exSayTy exSayTy_wf _ (exSay true (.some (.int .u8 ⟨7, by decide⟩)) (.some (.int _ (by simp [Upto64])) (fun h => nomatch h)))
  obtain ⟨v, k, h1, h2⟩ := h b fm "d" w false
  exact ⟨x, v, k, h1, h2⟩

theorem exSayNested : NestedBelow (.seq [.some (.int .u8 ⟨7, by decide⟩)]) 2 := .seq fun d hd => by
  rw [List.mem_singleton] at hd
  subst hd
  exact .some (.flat rfl)

example : ∃ text, ∀ (w : World), w.disk (w.locate (os "/c.toml")) = .file (utf8 text) none none →
    ∃ v k d', (register exB1 ⟨exTomlS, exTomlS⟩ [.file "f" (os "/c.toml")]).buildValue w false = .ok v ∧
      deAt exNoStructs k (.struct exSayTy) v = .ok d' ∧ DSame (exSayD (.some (.int .u8 ⟨7, by decide⟩))) d' := by
  obtain ⟨x, hu, h⟩ := C140_file exNoStructs exNoStructs_wf (fun _ => .struct (by simp [exNoStructs])) exSayTy exSayTy_wf exSayTy_concrete _
    (exSay false (.some (.int .u8 ⟨7, by decide⟩)) (.some (.int _ (by simp [Upto64])) (fun h => nomatch h)))
  obtain ⟨text, -, ht⟩ := h 3 exTomlS (exTomlS_like 3) (.struct (by simp only [List.forall_mem_cons]; exact ⟨.flat rfl, .flat rfl, exSayNested, by simp⟩))
  exact ⟨text, fun w hw => ht exB1 ⟨exTomlS, exTomlS⟩ "f" (os "/c.toml") w false none (Or.inl ⟨by decide, rfl, rfl⟩) hw⟩

theorem exCodec_noNulls : NullFreeFormat exCodec := by
  intro text doc h p x hx
  simp only [exCodec] at h
  split at h
  · cases h
  · cases h
    generalize hm : Doc.map [(Doc.str "text", Doc.str text)] = m at hx
    cases hx with
    | here => subst hm; simp
    | some h => cases hm
    | idx h _ => cases hm
    | @key before k' d after k p x hk ha hx =>
      rw [Doc.map.injEq, List.singleton_eq_append_iff] at hm
      rcases hm with ⟨-, h⟩ | ⟨-, h⟩
      · cases h; cases hx; simp
      · cases h

/-- A program with defaults, a file and the environment: the text it reads can be said without nulls. -/
example : ∃ v, (register exB1 exFormats [.memory "d" (.map [("k", .string "old")]), .file "f" (os "/a.toml"), .environment "e" "APP_"]).buildValue exDisk false = .ok v ∧
    ∀ k d, deAt exNoStructs k (.struct [("text", .string), ("k", .option .char)]) v = .ok d → Sayable false exNoStructs (.struct [("text", .string), ("k", .option .char)]) d := by
  refine ⟨_, rfl, fun k d hd => ?_⟩
  refine C140_only false exB1 exFormats [.memory "d" (.map [("k", .string "old")]), .file "f" (os "/a.toml"), .environment "e" "APP_"] (by simp [RegCall.BuiltIn]) ?_ ?_
    exDisk false _ rfl exNoStructs exNoStructs_wf _ ?_ k d hd
  · intro n x hx
    simp only [List.mem_cons, RegCall.memory.injEq, reduceCtorEq, List.not_mem_nil, or_false] at hx
    obtain ⟨-, rfl⟩ := hx
    refine ⟨by simp [UniqueKeys, UniqueKeysMap, UniqueKeysEntry], fun _ => noNone_map fun e he => ?_⟩
    rw [List.mem_singleton] at he; subst he
    exact noNone_leaf (by simp) fun s => by cases s <;> rfl
  · intro n p cd _ hf _
    rcases hf with ⟨-, -, rfl⟩ | ⟨-, -, rfl⟩ <;> exact exCodec_noNulls
  · refine .struct (by decide) fun f hf => ?_
    simp only [List.mem_cons, List.not_mem_nil, or_false] at hf
    rcases hf with rfl | rfl
    · exact .string
    · exact .option .char

/-- `Some(None)` is never read; `[1, null]` gives a `None` in a list. -/
example (k : Nat) : deAt exNoStructs k (.option (.option .bool)) (.string "true") ≠ .ok (.some .none) ∧
    deAt exNoStructs k (.seq (.option (.int .u8))) (.array [.string "1", .none]) = .ok (.seq [.some (.int .u8 ⟨1, by decide⟩), .none]) :=
  ⟨(C140_gaps exNoStructs exNoStructs_wf (.option .bool) (.option .bool) _ (by simp [UniqueKeys]) k).1 .none .none, rfl⟩

end Verif.Props
