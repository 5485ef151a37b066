import Verif.Spec.TypedLayers
import Verif.Props.Config
import Verif.Props.Serde
import Verif.Props.Buffer
/-!
# C114: reading typed settings from layers is overlaying the settings of each layer
-/
namespace Verif.Props
open Spec

theorem InParts.nodup {fs : List (String × Ty)} (h : InParts fs) : (fs.map Prod.fst).Nodup := by
  induction h with
  | nil => exact List.nodup_nil
  | piece _ _ hn ih => exact List.nodup_cons.2 ⟨hn, ih⟩
  | part _ _ hn _ ih => exact List.nodup_cons.2 ⟨hn, ih⟩
  | table _ _ hn ih => exact List.nodup_cons.2 ⟨hn, ih⟩

/-- Neither a section nor a table. -/
def NoParts (d : Data) : Prop := (∀ xs, d ≠ .struct xs) ∧ ∀ es, d ≠ .map es

/-- A type of one piece is not read from a map, nor from `None`, and never as a struct or a map. -/
theorem onePiece_de {refs : Nat → Decoder} {t : Ty} (ht : OnePiece t) :
    ∀ v d, de refs t v = .ok d → v.isMap = false ∧ v ≠ .none ∧ NoParts d := by
  have sc : ∀ (s : Scalar) (f : s.T → Data) (v : Value) (d : Data),
      (Outcome.ofExcept (Value.tryInto s v) >>= fun a => Outcome.ok (f a)) = .ok d → (v.isMap = false ∧ v ≠ .none) ∧ ∃ a, d = f a := by
    intro s f v d h
    obtain ⟨a, ha, hd⟩ := bind_eq_ok.1 h
    refine ⟨?_, a, by cases hd; rfl⟩
    cases v with
    | map m => rw [C31_containers_never_convert s (.map m) "Map" rfl] at ha; cases ha
    | none => rw [C31_containers_never_convert s .none "None" rfl] at ha; cases ha
    | _ => exact ⟨rfl, by simp⟩
  induction ht with
  | bool =>
    intro v d h; rw [de] at h; obtain ⟨h1, a, rfl⟩ := sc .bool (fun b => .bool b) _ _ h
    exact ⟨h1.1, h1.2, by simp [NoParts]⟩
  | int t =>
    intro v d h
    rw [de] at h
    obtain ⟨n, hn, hd⟩ := bind_eq_ok.1 h
    have hd' : d = .int t n := by cases hd; rfl
    have h3 : (Outcome.ofExcept (Value.tryInto (.int t) v) >>= fun a => Outcome.ok (Data.int t a)) = .ok d := by
      cases t <;> first
        | (rw [show deInt _ v = Outcome.ofExcept (v.tryInto (.int _)) from rfl] at hn; rw [bind_eq_ok]; exact ⟨n, hn, by rw [hd']⟩)
        | (rw [deInt] at hn; cases hn)
    have h1 := (sc (.int t) (fun n => .int t n) v d h3).1
    exact ⟨h1.1, h1.2, by simp [NoParts, hd']⟩
  | f32 =>
    intro v d h; rw [de] at h; obtain ⟨h1, a, rfl⟩ := sc .f64 (fun x => .f32 (F32.ofF64 x)) _ _ h
    exact ⟨h1.1, h1.2, by simp [NoParts]⟩
  | f64 =>
    intro v d h; rw [de] at h; obtain ⟨h1, a, rfl⟩ := sc .f64 (fun x => .f64 x) _ _ h
    exact ⟨h1.1, h1.2, by simp [NoParts]⟩
  | char =>
    intro v d h; rw [de] at h; obtain ⟨h1, a, rfl⟩ := sc .char (fun x => .char x) _ _ h
    exact ⟨h1.1, h1.2, by simp [NoParts]⟩
  | string =>
    intro v d h; rw [de] at h; obtain ⟨h1, a, rfl⟩ := sc .string (fun x => .str x) _ _ h
    exact ⟨h1.1, h1.2, by simp [NoParts]⟩
  | seq t =>
    intro v d h
    cases v <;> simp only [de, reduceCtorEq] at h
    obtain ⟨a, -, h⟩ := bind_eq_ok.1 h; cases h
    exact ⟨rfl, by simp, by simp [NoParts]⟩
  | tuple ts =>
    intro v d h
    cases v <;> simp only [de, reduceCtorEq] at h
    obtain ⟨a, -, h⟩ := bind_eq_ok.1 h; cases h
    exact ⟨rfl, by simp, by simp [NoParts]⟩
  | tupleStruct ts =>
    intro v d h
    cases v <;> simp only [de, reduceCtorEq] at h
    obtain ⟨a, -, h⟩ := bind_eq_ok.1 h; cases h
    exact ⟨rfl, by simp, by simp [NoParts]⟩
  | newtype _ ih =>
    intro v d h; rw [de] at h; obtain ⟨a, ha, h⟩ := bind_eq_ok.1 h
    have := ih v a ha
    cases h
    exact ⟨this.1, this.2.1, by simp [NoParts]⟩

/-- Reading an `Option`. -/
theorem de_option_ok {refs : Nat → Decoder} {t : Ty} {v : Value} {d : Data} (h : de refs (.option t) v = .ok d) :
    (v = .none ∧ d = .none) ∨ (v ≠ .none ∧ ∃ x, d = .some x ∧ de refs t v = .ok x) := by
  cases v with
  | none => simp only [de, Outcome.ok.injEq] at h; exact Or.inl ⟨rfl, h.symm⟩
  | _ => simp only [de] at h; obtain ⟨x, hx, h⟩ := bind_eq_ok.1 h; cases h; exact Or.inr ⟨by simp, x, rfl, hx⟩

theorem de_option_some {refs : Nat → Decoder} {t : Ty} {v : Value} (hv : v ≠ .none) {x : Data} (h : de refs t v = .ok x) :
    de refs (.option t) v = .ok (.some x) := by
  cases v with
  | none => exact absurd rfl hv
  | _ => simp only [de]; exact bind_eq_ok.2 ⟨x, h, rfl⟩

/-- What `de_struct_ok` asks of a field. -/
def FieldRead (refs : Nat → Decoder) (m : Entries) (f : String × Ty) (nd : String × Data) : Prop :=
  nd.1 = f.1 ∧ (match hmGet m f.1 with | some v => de refs f.2 v | none => missingField f.1 f.2) = .ok nd.2

theorem fieldRead_option {refs : Nat → Decoder} {m : Entries} {n : String} {t : Ty} {nd : String × Data} :
    FieldRead refs m (n, .option t) nd ↔ nd.1 = n ∧
      ((hmGet m n = none ∧ nd.2 = .none) ∨ (hmGet m n = some .none ∧ nd.2 = .none) ∨
        ∃ v x, hmGet m n = some v ∧ v ≠ .none ∧ de refs t v = .ok x ∧ nd.2 = .some x) := by
  unfold FieldRead
  cases hg : hmGet m n with
  | none => simp [missingField, eq_comm]
  | some v =>
    simp only [reduceCtorEq, false_and, Option.some.injEq, false_or]
    refine and_congr_right fun _ => ⟨fun h => ?_, fun h => ?_⟩
    · rcases de_option_ok h with ⟨h1, h2⟩ | ⟨h1, x, h2, h3⟩
      · exact Or.inl ⟨h1, h2⟩
      · exact Or.inr ⟨v, x, rfl, h1, h3, h2⟩
    · rcases h with ⟨h1, h2⟩ | ⟨v', x, rfl, h1, h2, h3⟩
      · subst h1; rw [h2, de]
      · rw [h3]; exact de_option_some h1 h2

theorem noNull_child {m : Entries} (h : ∀ p, ¬ NullEntry (.map m) p) {k : String} {v : Value} (hg : hmGet m k = some v) :
    v ≠ .none ∧ ∀ p, ¬ NullEntry v p := by
  constructor
  · rintro rfl
    exact h [.key k] ⟨⟨[], k, rfl⟩, by rw [view_key_map, hg]; rfl⟩
  · rintro p ⟨⟨q, j, rfl⟩, hv⟩
    exact h (.key k :: (q ++ [.key j])) ⟨⟨.key k :: q, j, rfl⟩, by rw [view_key_map, hg]; exact hv⟩

theorem overlaid_none (x : Data) : overlaidWith x .none = x := by rw [overlaidWith]
theorem overlaid_some (x d : Data) : overlaidWith x (.some d) = overlaidSome x d := by rw [overlaidWith]
theorem overlaid_plain {d : Data} (h : NoParts d) (x : Data) : overlaidSome x d = .some d := by
  cases d <;> first | rfl | exact absurd rfl (h.1 _) | exact absurd rfl (h.2 _)

/-- A table is read entry by entry. -/
theorem de_table {refs : Nat → Decoder} {t : Ty} {v : Value} (hu : UniqueKeys v) {d : Data} :
    de refs (.map .string t) v = .ok d ↔ ∃ m es, v = .map m ∧ d = .map es ∧
      List.Forall₂ (fun e (x : Data × Data) => x.1 = .str e.1 ∧ de refs t e.2 = .ok x.2) m es := by
  cases v with
  | map m =>
    simp only [de]
    rw [mapReads_iff _ m (uniqueKeys_map.1 hu).1]
    constructor
    · rintro ⟨es, h1, h2⟩; exact ⟨m, es, rfl, h1, h2⟩
    · rintro ⟨_, es, e, h1, h2⟩; cases e; exact ⟨es, h1, h2⟩
  | _ => simp [de]

theorem table_set {dec : Decoder} {k : String} {v : Value} {d : Data} (hd : dec v = .ok d) {m : Entries} {xs : List (Data × Data)}
    (h : List.Forall₂ (fun (e : String × Value) (x : Data × Data) => x.1 = .str e.1 ∧ dec e.2 = .ok x.2) m xs) :
    List.Forall₂ (fun (e : String × Value) (x : Data × Data) => x.1 = .str e.1 ∧ dec e.2 = .ok x.2) (hmInsert m k v) (setEntry xs (.str k, d)) := by
  induction h with
  | nil => exact .cons ⟨rfl, hd⟩ .nil
  | @cons e x m xs hx hxs ih =>
    obtain ⟨k', v'⟩ := e
    obtain ⟨xk, xd⟩ := x
    obtain ⟨h1, h2⟩ := hx
    simp only [] at h1 h2
    subst h1
    rw [hmInsert, setEntry]
    by_cases hk : k' = k
    · subst hk
      simp only [if_true, beq_self_eq_true]
      exact .cons ⟨rfl, hd⟩ hxs
    · have : ¬ (keyOf (Data.str k') == keyOf (Data.str k)) = true := by
        simp only [keyOf, beq_iff_eq, Option.some.injEq, Key.str.injEq]; exact hk
      rw [if_neg hk, if_neg this]
      exact .cons ⟨rfl, h2⟩ ih

/-- The entries of a merged table. -/
theorem table_merge {refs : Nat → Decoder} {t : Ty} (ht : OnePiece t) {mb : Entries} {ys : List (Data × Data)}
    (hy : List.Forall₂ (fun (e : String × Value) (x : Data × Data) => x.1 = .str e.1 ∧ de refs t e.2 = .ok x.2) mb ys) :
    ∀ {ma : Entries} {xs : List (Data × Data)},
      List.Forall₂ (fun (e : String × Value) (x : Data × Data) => x.1 = .str e.1 ∧ de refs t e.2 = .ok x.2) ma xs →
      List.Forall₂ (fun (e : String × Value) (x : Data × Data) => x.1 = .str e.1 ∧ de refs t e.2 = .ok x.2) (mergeEntries ma mb)
        (overlaidTable xs ys) := by
  induction hy with
  | nil => intro ma xs hx; exact hx
  | @cons e y mb ys h _ ih =>
    intro ma xs hx
    obtain ⟨k, v⟩ := e
    obtain ⟨yk, yd⟩ := y
    obtain ⟨h1, h2⟩ := h
    simp only [] at h1 h2
    subst h1
    have hm : mergeEntry ma (k, v) = hmInsert ma k v := by
      rw [mergeEntry]
      cases hmGet ma k with
      | none => rfl
      | some x => simp [(onePiece_de ht v yd h2).1]
    rw [mergeEntries, hm]
    exact ih (table_set h2 hx)

/-- The fields of a merged map. -/
theorem fields_merge (refs : Nat → Decoder) {fs : List (String × Ty)} (hf : InParts fs) :
    ∀ (ma mb : Entries) (xs ys : List (String × Data)), UniqueKeys (.map ma) → UniqueKeys (.map mb) → (∀ p, ¬ NullEntry (.map mb) p) →
      List.Forall₂ (FieldRead refs ma) fs xs → List.Forall₂ (FieldRead refs mb) fs ys →
      List.Forall₂ (FieldRead refs (mergeEntries ma mb)) fs (overlaidFields xs ys) := by
  induction hf with
  | nil =>
    intro ma mb xs ys _ _ _ hx hy
    cases hx; cases hy
    exact List.Forall₂.nil
  | @piece n t fs ht _ _ ih =>
    intro ma mb xs ys hua hub hnn hx hy
    cases hx with | @cons _ x _ xs hx hxs =>
    cases hy with | @cons _ y _ ys hy hys =>
    obtain ⟨yn, yd⟩ := y
    rw [show overlaidFields (x :: xs) ((yn, yd) :: ys) = (yn, overlaidWith x.2 yd) :: overlaidFields xs ys by rw [overlaidFields, overlaidField]]
    refine List.Forall₂.cons ?_ (ih ma mb xs ys hua hub hnn hxs hys)
    rw [fieldRead_option] at hx hy ⊢
    refine ⟨hy.1, ?_⟩
    rw [merge_get_cases ma mb (uniqueKeys_map.1 hub).1 n]
    rcases hy.2 with ⟨h1, h2⟩ | ⟨h1, h2⟩ | ⟨v, d, h1, h2, h3, h4⟩
    · simp only [] at h2; subst h2
      rw [overlaid_none, h1]
      exact hx.2
    · exact absurd rfl (noNull_child hnn h1).1
    · simp only [] at h4; subst h4
      rw [overlaid_some, overlaid_plain (onePiece_de ht v d h3).2.2, h1]
      refine Or.inr (Or.inr ⟨v, d, ?_, h2, h3, rfl⟩)
      cases hmGet ma n with
      | none => rfl
      | some va => simp [(onePiece_de ht v d h3).1]
  | @part n gs fs hgs _ _ ihg ih =>
    intro ma mb xs ys hua hub hnn hx hy
    cases hx with | @cons _ x _ xs hx hxs =>
    cases hy with | @cons _ y _ ys hy hys =>
    obtain ⟨yn, yd⟩ := y
    rw [show overlaidFields (x :: xs) ((yn, yd) :: ys) = (yn, overlaidWith x.2 yd) :: overlaidFields xs ys by rw [overlaidFields, overlaidField]]
    refine List.Forall₂.cons ?_ (ih ma mb xs ys hua hub hnn hxs hys)
    rw [fieldRead_option] at hx hy ⊢
    refine ⟨hy.1, ?_⟩
    rw [merge_get_cases ma mb (uniqueKeys_map.1 hub).1 n]
    have isStruct : ∀ v d, de refs (.struct gs) v = .ok d → UniqueKeys v →
        ∃ m ds, v = .map m ∧ d = .struct ds ∧ List.Forall₂ (FieldRead refs m) gs ds := by
      intro v d h hu
      cases v with
      | map m =>
        obtain ⟨ds, h1, h2⟩ := (de_struct_ok refs gs (InParts.nodup hgs) m (uniqueKeys_map.1 hu).1 d).1 h
        exact ⟨m, ds, rfl, h1, h2⟩
      | _ => simp [de, deStruct] at h
    rcases hy.2 with ⟨h1, h2⟩ | ⟨h1, h2⟩ | ⟨v, d, h1, h2, h3, h4⟩
    · simp only [] at h2; subst h2
      rw [overlaid_none, h1]
      exact hx.2
    · exact absurd rfl (noNull_child hnn h1).1
    · simp only [] at h4; subst h4
      have hub' := uniqueKeys_get hub h1
      obtain ⟨m, ds, rfl, rfl, hds⟩ := isStruct v d h3 hub'
      rw [overlaid_some, h1]
      rcases hx.2 with ⟨g1, g2⟩ | ⟨g1, g2⟩ | ⟨va, da, g1, g2, g3, g4⟩
      · rw [g1, g2]
        exact Or.inr (Or.inr ⟨.map m, .struct ds, rfl, h2, h3, by rw [overlaidSome]; intro _ h; cases h⟩)
      · rw [g1, g2]
        exact Or.inr (Or.inr ⟨.map m, .struct ds, rfl, h2, h3, by rw [overlaidSome]; intro _ h; cases h⟩)
      · have hua' := uniqueKeys_get hua g1
        obtain ⟨m', ds', rfl, rfl, hds'⟩ := isStruct va da g3 hua'
        rw [g1, g4]
        refine Or.inr (Or.inr ⟨(Value.map m').merge (.map m), .struct (overlaidFields ds' ds), rfl, by rw [merge_map_map]; simp, ?_, ?_⟩)
        · rw [merge_map_map]
          refine (de_struct_ok refs gs (InParts.nodup hgs) _ ?_ _).2 ⟨_, rfl, ihg m' m ds' ds hua' hub' (noNull_child hnn h1).2 hds' hds⟩
          have := uniqueKeys_merge hua' hub'
          rw [merge_map_map] at this
          exact (uniqueKeys_map.1 this).1
        · rw [overlaidSome]
  | @table n t fs ht _ _ ih =>
    intro ma mb xs ys hua hub hnn hx hy
    cases hx with | @cons _ x _ xs hx hxs =>
    cases hy with | @cons _ y _ ys hy hys =>
    obtain ⟨yn, yd⟩ := y
    rw [show overlaidFields (x :: xs) ((yn, yd) :: ys) = (yn, overlaidWith x.2 yd) :: overlaidFields xs ys by rw [overlaidFields, overlaidField]]
    refine List.Forall₂.cons ?_ (ih ma mb xs ys hua hub hnn hxs hys)
    rw [fieldRead_option] at hx hy ⊢
    refine ⟨hy.1, ?_⟩
    rw [merge_get_cases ma mb (uniqueKeys_map.1 hub).1 n]
    rcases hy.2 with ⟨h1, h2⟩ | ⟨h1, h2⟩ | ⟨v, d, h1, h2, h3, h4⟩
    · simp only [] at h2; subst h2
      rw [overlaid_none, h1]
      exact hx.2
    · exact absurd rfl (noNull_child hnn h1).1
    · simp only [] at h4; subst h4
      have hub' := uniqueKeys_get hub h1
      obtain ⟨m, es, rfl, rfl, hes⟩ := (de_table hub').1 h3
      rw [overlaid_some, h1]
      rcases hx.2 with ⟨g1, g2⟩ | ⟨g1, g2⟩ | ⟨va, da, g1, g2, g3, g4⟩
      · rw [g1, g2]
        exact Or.inr (Or.inr ⟨.map m, .map es, rfl, h2, h3, rfl⟩)
      · rw [g1, g2]
        exact Or.inr (Or.inr ⟨.map m, .map es, rfl, h2, h3, rfl⟩)
      · have hua' := uniqueKeys_get hua g1
        obtain ⟨m', es', rfl, rfl, hes'⟩ := (de_table hua').1 g3
        rw [g1, g4]
        refine Or.inr (Or.inr ⟨(Value.map m').merge (.map m), .map (overlaidTable es' es), rfl, by rw [merge_map_map]; simp, ?_, rfl⟩)
        rw [de_table (uniqueKeys_merge hua' hub')]
        exact ⟨_, _, merge_map_map _ _, rfl, table_merge ht hes hes'⟩

/-- **C114.** Reading settings from a merge is overlaying the settings read from its two sides. -/
theorem C114_merge (structs : Nat → List (String × Ty)) (k : Nat) (fs : List (String × Ty)) (hf : InParts fs) (a b : Value)
    (ha : UniqueKeys a) (hb : UniqueKeys b) (hnn : ∀ p, ¬ NullEntry b p) (xs ys : List (String × Data))
    (hx : deAt structs k (.struct fs) a = .ok (.struct xs)) (hy : deAt structs k (.struct fs) b = .ok (.struct ys)) :
    deAt structs k (.struct fs) (a.merge b) = .ok (.struct (overlaidFields xs ys)) := by
  unfold deAt at hx hy ⊢
  obtain ⟨ma, rfl⟩ := (isMap_cases a).resolve_right (by intro h; cases a <;> simp [de, deStruct, Value.isMap] at hx h)
  obtain ⟨mb, rfl⟩ := (isMap_cases b).resolve_right (by intro h; cases b <;> simp [de, deStruct, Value.isMap] at hy h)
  obtain ⟨xs', e, h1⟩ := (de_struct_ok _ fs (InParts.nodup hf) ma (uniqueKeys_map.1 ha).1 _).1 hx
  cases e
  obtain ⟨ys', e, h2⟩ := (de_struct_ok _ fs (InParts.nodup hf) mb (uniqueKeys_map.1 hb).1 _).1 hy
  cases e
  rw [merge_map_map]
  refine (de_struct_ok _ fs (InParts.nodup hf) _ ?_ _).2 ⟨_, rfl, fields_merge _ hf ma mb xs ys ha hb hnn h1 h2⟩
  have := uniqueKeys_merge ha hb
  rw [merge_map_map] at this
  exact (uniqueKeys_map.1 this).1

theorem reads_nothing (structs : Nat → List (String × Ty)) (k : Nat) (fs : List (String × Ty)) (hf : InParts fs) :
    deAt structs k (.struct fs) (.map []) = .ok (.struct (nothingGiven fs)) := by
  refine (de_struct_ok _ fs (InParts.nodup hf) [] List.nodup_nil _).2 ⟨_, rfl, ?_⟩
  induction hf with
  | nil => exact List.Forall₂.nil
  | piece _ _ _ ih => exact List.Forall₂.cons ⟨rfl, rfl⟩ ih
  | part _ _ _ _ ih => exact List.Forall₂.cons ⟨rfl, rfl⟩ ih
  | table _ _ _ ih => exact List.Forall₂.cons ⟨rfl, rfl⟩ ih

/-- **C114.** The settings read from a built value are those of the layers that could be read, overlaid in order. -/
theorem C114_build (b : Build) (fm : Formats) (calls : List RegCall) (w : World) (skip : Bool) (v : Value)
    (h : (register b fm calls).buildValue w skip = .ok v) (hp : ∀ e ∈ firsts (offers b fm calls), Proper e.2)
    (structs : Nat → List (String × Ty)) (k : Nat) (fs : List (String × Ty)) (hf : InParts fs) (settings : List (List (String × Data)))
    (hs : List.Forall₂ (fun (x : Value) s => (∀ p, ¬ NullEntry x p) ∧ deAt structs k (.struct fs) x = .ok (.struct s))
      ((firsts (offers b fm calls)).filterMap fun e => (e.2.readValue w).toOption) settings) :
    deAt structs k (.struct fs) v = .ok (.struct (settings.foldl overlaidFields (nothingGiven fs))) := by
  rw [build_ok h]
  have hu : ∀ x ∈ readables w (firsts (offers b fm calls)), UniqueKeys x := by
    intro x hx
    obtain ⟨e, he, h⟩ := List.mem_filterMap.1 hx
    cases hr : e.2.readValue w with
    | error y => rw [hr] at h; cases h
    | ok y => rw [hr] at h; cases h; exact hp e he w x hr
  have key : ∀ (vs : List Value) (ss : List (List (String × Data))), (∀ x ∈ vs, UniqueKeys x) →
      List.Forall₂ (fun (x : Value) s => (∀ p, ¬ NullEntry x p) ∧ deAt structs k (.struct fs) x = .ok (.struct s)) vs ss →
      ∀ (a : Value) s0, UniqueKeys a → deAt structs k (.struct fs) a = .ok (.struct s0) →
        deAt structs k (.struct fs) (vs.foldl Value.merge a) = .ok (.struct (ss.foldl overlaidFields s0)) := by
    intro vs ss hu hs
    induction hs with
    | nil => intro a s0 _ h; exact h
    | @cons x s vs ss hxs _ ih =>
      intro a s0 ha h
      rw [List.foldl_cons, List.foldl_cons]
      exact ih (fun y hy => hu y (by simp [hy])) _ _ (uniqueKeys_merge ha (hu x (by simp)))
        (C114_merge structs k fs hf a x ha (hu x (by simp)) hxs.1 s0 s h hxs.2)
  exact key _ settings hu hs (.map []) _ (uniqueKeys_map.2 ⟨List.nodup_nil, by simp⟩) (reads_nothing structs k fs hf)

theorem required_names {fs gs : List (String × Ty)} (h : Required fs gs) : gs.map Prod.fst = fs.map Prod.fst := by
  induction h with
  | nil => rfl
  | piece _ _ ih => simp [ih]
  | part _ _ _ ih => simp [ih]
  | table _ _ ih => simp [ih]

theorem fields_required (refs : Nat → Decoder) {fs gs : List (String × Ty)} (hr : Required fs gs) :
    InParts fs → ∀ (m : Entries) (ys : List (String × Data)), UniqueKeys (.map m) →
      (List.Forall₂ (FieldRead refs m) gs ys ↔ ∃ xs, List.Forall₂ (FieldRead refs m) fs xs ∧ Complete fs xs ys) := by
  induction hr with
  | nil =>
    intro _ m ys _
    constructor
    · intro h; cases h; exact ⟨[], List.Forall₂.nil, .nil⟩
    · rintro ⟨xs, h1, h2⟩; cases h2; exact List.Forall₂.nil
  | @piece n t fs gs ht hr ih =>
    intro hf m ys hu
    have hf' : InParts fs := by cases hf <;> assumption
    constructor
    · intro h
      cases h with | @cons _ y _ ys hy hys =>
      obtain ⟨xs, h1, h2⟩ := (ih hf' m ys hu).1 hys
      obtain ⟨yn, yd⟩ := y
      obtain ⟨rfl, hy⟩ := hy
      refine ⟨(yn, .some yd) :: xs, List.Forall₂.cons ?_ h1, .piece ht h2⟩
      rw [fieldRead_option]
      simp only [] at hy
      refine ⟨rfl, Or.inr (Or.inr ?_)⟩
      cases hg : hmGet m yn with
      | none =>
        rw [hg] at hy; exfalso
        cases ht <;> simp [missingField] at hy
      | some v =>
        rw [hg] at hy
        exact ⟨v, yd, rfl, (onePiece_de ht v yd hy).2.1, hy, rfl⟩
    · rintro ⟨xs, h1, h2⟩
      cases h2 with
      | @piece _ _ _ d xs ys _ h2 =>
        cases h1 with | cons hx hxs =>
        refine List.Forall₂.cons ?_ ((ih hf' m ys hu).2 ⟨xs, hxs, h2⟩)
        rw [fieldRead_option] at hx
        rcases hx.2 with ⟨-, h⟩ | ⟨-, h⟩ | ⟨v, x, g1, g2, g3, g4⟩
        · cases h
        · cases h
        · cases g4
          exact ⟨rfl, by simp only [g1]; exact g3⟩
      | part => cases ht
      | table => cases ht
  | @part n hs ks fs gs hrs hr ihs ih =>
    intro hf m ys hu
    have hf' : InParts fs := by cases hf <;> assumption
    have hh : InParts hs := by
      cases hf with
      | piece ht => cases ht
      | part h => exact h
    have hk : (ks.map Prod.fst).Nodup := by rw [required_names hrs]; exact InParts.nodup hh
    constructor
    · intro h
      cases h with | @cons _ y _ ys hy hys =>
      obtain ⟨xs, h1, h2⟩ := (ih hf' m ys hu).1 hys
      obtain ⟨yn, yd⟩ := y
      obtain ⟨rfl, hy⟩ := hy
      simp only [] at hy
      cases hg : hmGet m yn with
      | none => rw [hg] at hy; simp [missingField] at hy
      | some v =>
        rw [hg] at hy
        have huv := uniqueKeys_get hu hg
        cases v with
        | map mv =>
          obtain ⟨bs, rfl, hbs⟩ := (de_struct_ok refs ks hk mv (uniqueKeys_map.1 huv).1 yd).1 hy
          obtain ⟨as, h3, h4⟩ := (ihs hh mv bs huv).1 hbs
          refine ⟨(yn, .some (.struct as)) :: xs, List.Forall₂.cons ?_ h1, .part h4 h2⟩
          rw [fieldRead_option]
          exact ⟨rfl, Or.inr (Or.inr ⟨.map mv, .struct as, hg, by simp,
            (de_struct_ok refs hs (InParts.nodup hh) mv (uniqueKeys_map.1 huv).1 _).2 ⟨as, rfl, h3⟩, rfl⟩)⟩
        | _ => simp [de, deStruct] at hy
    · rintro ⟨xs, h1, h2⟩
      cases h2 with
      | piece ht => cases ht
      | @part _ _ _ as bs xs ys h3 h2 =>
        cases h1 with | cons hx hxs =>
        refine List.Forall₂.cons ?_ ((ih hf' m ys hu).2 ⟨xs, hxs, h2⟩)
        rw [fieldRead_option] at hx
        rcases hx.2 with ⟨-, h⟩ | ⟨-, h⟩ | ⟨v, x, g1, g2, g3, g4⟩
        · cases h
        · cases h
        · cases g4
          have huv := uniqueKeys_get hu g1
          refine ⟨rfl, ?_⟩
          simp only [g1]
          cases v with
          | map mv =>
            obtain ⟨as', e, has⟩ := (de_struct_ok refs hs (InParts.nodup hh) mv (uniqueKeys_map.1 huv).1 _).1 g3
            cases e
            exact (de_struct_ok refs ks hk mv (uniqueKeys_map.1 huv).1 _).2 ⟨bs, rfl, (ihs hh mv bs huv).2 ⟨as, has, h3⟩⟩
          | _ => simp [de, deStruct] at g3
  | @table n t fs gs ht hr ih =>
    intro hf m ys hu
    have hf' : InParts fs := by cases hf <;> assumption
    constructor
    · intro h
      cases h with | @cons _ y _ ys hy hys =>
      obtain ⟨xs, h1, h2⟩ := (ih hf' m ys hu).1 hys
      obtain ⟨yn, yd⟩ := y
      obtain ⟨rfl, hy⟩ := hy
      refine ⟨(yn, .some yd) :: xs, List.Forall₂.cons ?_ h1, .table ht h2⟩
      rw [fieldRead_option]
      simp only [] at hy
      refine ⟨rfl, Or.inr (Or.inr ?_)⟩
      cases hg : hmGet m yn with
      | none => rw [hg] at hy; simp [missingField] at hy
      | some v =>
        rw [hg] at hy
        exact ⟨v, yd, rfl, by rintro rfl; simp [de] at hy, hy, rfl⟩
    · rintro ⟨xs, h1, h2⟩
      cases h2 with
      | @table _ _ _ d xs ys _ h2 =>
        cases h1 with | cons hx hxs =>
        refine List.Forall₂.cons ?_ ((ih hf' m ys hu).2 ⟨xs, hxs, h2⟩)
        rw [fieldRead_option] at hx
        rcases hx.2 with ⟨-, h⟩ | ⟨-, h⟩ | ⟨v, x, g1, g2, g3, g4⟩
        · cases h
        · cases h
        · cases g4
          exact ⟨rfl, by simp only [g1]; exact g3⟩
      | piece h => cases h

/-- **C114.** Settings without `Option`s can be read from a map exactly if the optional ones can and give everything. -/
theorem C114_required (structs : Nat → List (String × Ty)) (k : Nat) (fs gs : List (String × Ty)) (hf : InParts fs) (hr : Required fs gs)
    (v : Value) (hu : UniqueKeys v) (ys : List (String × Data)) :
    deAt structs k (.struct gs) v = .ok (.struct ys) ↔
      ∃ xs, deAt structs k (.struct fs) v = .ok (.struct xs) ∧ Complete fs xs ys := by
  unfold deAt
  cases v with
  | map m =>
    have hg : (gs.map Prod.fst).Nodup := by rw [required_names hr]; exact InParts.nodup hf
    rw [de_struct_ok _ gs hg m (uniqueKeys_map.1 hu).1]
    constructor
    · rintro ⟨ds, e, h⟩
      cases e
      obtain ⟨xs, h1, h2⟩ := (fields_required _ hr hf m ys hu).1 h
      exact ⟨xs, (de_struct_ok _ fs (InParts.nodup hf) m (uniqueKeys_map.1 hu).1 _).2 ⟨xs, rfl, h1⟩, h2⟩
    · rintro ⟨xs, h1, h2⟩
      obtain ⟨xs', e, h1⟩ := (de_struct_ok _ fs (InParts.nodup hf) m (uniqueKeys_map.1 hu).1 _).1 h1
      cases e
      exact ⟨ys, rfl, (fields_required _ hr hf m ys hu).2 ⟨xs, h1, h2⟩⟩
  | _ => simp [de, deStruct]

/-- **C114.** Together: a program that reads its settings from the built value gets exactly the overlay of what the layers give, provided they
together give everything; otherwise the reading fails. -/
theorem C114_settings (b : Build) (fm : Formats) (calls : List RegCall) (w : World) (skip : Bool) (v : Value)
    (h : (register b fm calls).buildValue w skip = .ok v) (hp : ∀ e ∈ firsts (offers b fm calls), Proper e.2)
    (structs : Nat → List (String × Ty)) (k : Nat) (fs gs : List (String × Ty)) (hf : InParts fs) (hr : Required fs gs)
    (settings : List (List (String × Data)))
    (hs : List.Forall₂ (fun (x : Value) s => (∀ p, ¬ NullEntry x p) ∧ deAt structs k (.struct fs) x = .ok (.struct s))
      ((firsts (offers b fm calls)).filterMap fun e => (e.2.readValue w).toOption) settings) (ys : List (String × Data)) :
    deAt structs k (.struct gs) v = .ok (.struct ys) ↔ Complete fs (settings.foldl overlaidFields (nothingGiven fs)) ys := by
  rw [C114_required structs k fs gs hf hr v ((C08_map b fm calls w skip v h).2 hp),
    C114_build b fm calls w skip v h hp structs k fs hf settings hs]
  constructor
  · rintro ⟨xs, e, hc⟩; cases e; exact hc
  · exact fun hc => ⟨_, rfl, hc⟩

/-! ## Read piece by piece -/

/-- A table with text keys. -/
def tableOf (l : List (String × Data)) : List (Data × Data) := l.map fun e => (.str e.1, e.2)

/-- The names of settings that were read are those of the fields, a piece is not a struct, a section is one that was read in its turn. -/
inductive FitsParts : List (String × Ty) → List (String × Data) → Prop
  | nil : FitsParts [] []
  | piece {n t fs d xs} : OnePiece t → (∀ y, d = .some y → NoParts y) → (d = .none ∨ ∃ y, d = .some y) → FitsParts fs xs →
      FitsParts ((n, .option t) :: fs) ((n, d) :: xs)
  | empty {n gs fs xs} : FitsParts fs xs → FitsParts ((n, .option (.struct gs)) :: fs) ((n, .none) :: xs)
  | part {n gs fs as xs} : FitsParts gs as → FitsParts fs xs → FitsParts ((n, .option (.struct gs)) :: fs) ((n, .some (.struct as)) :: xs)
  | table {n t fs d xs} : (d = .none ∨ ∃ l, d = .some (.map (tableOf l)) ∧ (l.map Prod.fst).Nodup) → FitsParts fs xs →
      FitsParts ((n, .option (.map .string t)) :: fs) ((n, d) :: xs)

theorem setEntry_table (l : List (String × Data)) (k : String) (d : Data) : setEntry (tableOf l) (.str k, d) = tableOf (hmInsert l k d) := by
  induction l with
  | nil => rfl
  | cons e l ih =>
    obtain ⟨k', x⟩ := e
    show setEntry ((.str k', x) :: tableOf l) (.str k, d) = _
    rw [setEntry, hmInsert]
    by_cases hk : k' = k
    · subst hk; simp only [if_true, beq_self_eq_true]; rfl
    · have : ¬ (keyOf (Data.str k') == keyOf (Data.str k)) = true := by
        simp only [keyOf, beq_iff_eq, Option.some.injEq, Key.str.injEq]; exact hk
      rw [if_neg hk, if_neg this, ih]; rfl

theorem overlaid_table (b : List (String × Data)) : ∀ (a : List (String × Data)), (a.map Prod.fst).Nodup → (b.map Prod.fst).Nodup →
    ∃ c, overlaidTable (tableOf a) (tableOf b) = tableOf c ∧ (c.map Prod.fst).Nodup ∧ ∀ k, hmGet c k = (hmGet b k).or (hmGet a k) := by
  induction b with
  | nil => intro a ha _; exact ⟨a, rfl, ha, fun k => rfl⟩
  | cons e b ih =>
    intro a ha hb
    obtain ⟨k, d⟩ := e
    rw [List.map_cons, List.nodup_cons] at hb
    obtain ⟨c, h1, h2, h3⟩ := ih (hmInsert a k d) (nodup_insert ha k d) hb.2
    refine ⟨c, ?_, h2, fun j => ?_⟩
    · show overlaidTable (setEntry (tableOf a) (.str k, d)) (tableOf b) = _
      rw [setEntry_table, h1]
    · rw [h3, hmGet_insert, hmGet_cons]
      by_cases hk : k = j
      · subst hk
        have : hmGet b k = none := hmGet_eq_none.2 hb.1
        rw [this]; simp
      · rw [if_neg hk, if_neg hk]

theorem table_names {dec : Decoder} {m : Entries} {es : List (Data × Data)}
    (h : List.Forall₂ (fun (e : String × Value) (x : Data × Data) => x.1 = .str e.1 ∧ dec e.2 = .ok x.2) m es) :
    ∃ l : List (String × Data), es = tableOf l ∧ l.map Prod.fst = m.map Prod.fst := by
  induction h with
  | nil => exact ⟨[], rfl, rfl⟩
  | @cons e x _ _ h _ ih =>
    obtain ⟨l, h1, h2⟩ := ih
    refine ⟨(e.1, x.2) :: l, ?_, by simp [h2]⟩
    rw [h1]
    show x :: tableOf l = (.str e.1, x.2) :: tableOf l
    rw [← h.1]

theorem dchild_table (l : List (String × Data)) (k : String) : dchild (.map (tableOf l)) (.key (.str k)) = hmGet l k := by
  induction l with
  | nil => rfl
  | cons e l ih =>
    obtain ⟨k', x⟩ := e
    rw [hmGet_cons, ← ih]
    show (List.find? _ ((.str k', x) :: tableOf l)).map Prod.snd = _
    by_cases hk : k' = k
    · rw [List.find?_cons_of_pos (by simp [keyOf, hk]), if_pos hk]; rfl
    · rw [List.find?_cons_of_neg (by simp [keyOf, hk]), if_neg hk]; rfl

theorem fits_read (refs : Nat → Decoder) {fs : List (String × Ty)} (hf : InParts fs) :
    ∀ (m : Entries) (xs : List (String × Data)), UniqueKeys (.map m) → List.Forall₂ (FieldRead refs m) fs xs → FitsParts fs xs := by
  induction hf with
  | nil => intro m xs _ h; cases h; exact .nil
  | @piece n t fs ht _ _ ih =>
    intro m xs hu h
    cases h with | @cons _ x _ xs hx hxs =>
    obtain ⟨xn, xd⟩ := x
    rw [fieldRead_option] at hx
    obtain ⟨rfl, hx⟩ := hx
    simp only [] at hx
    refine .piece ht ?_ ?_ (ih m xs hu hxs)
    · rintro y rfl
      rcases hx with ⟨-, h⟩ | ⟨-, h⟩ | ⟨v, x, -, -, h1, h2⟩
      · cases h
      · cases h
      · cases h2; exact (onePiece_de ht v _ h1).2.2
    · rcases hx with ⟨-, h⟩ | ⟨-, h⟩ | ⟨v, x, -, -, h1, h2⟩
      · exact Or.inl h
      · exact Or.inl h
      · exact Or.inr ⟨x, h2⟩
  | @part n gs fs hgs _ _ ihg ih =>
    intro m xs hu h
    cases h with | @cons _ x _ xs hx hxs =>
    obtain ⟨xn, xd⟩ := x
    rw [fieldRead_option] at hx
    obtain ⟨rfl, hx⟩ := hx
    simp only [] at hx
    rcases hx with ⟨-, h⟩ | ⟨-, h⟩ | ⟨v, x, h0, -, h1, h2⟩
    · subst h; exact .empty (ih m xs hu hxs)
    · subst h; exact .empty (ih m xs hu hxs)
    · subst h2
      have huv := uniqueKeys_get hu h0
      cases v with
      | map mv =>
        obtain ⟨ds, rfl, hds⟩ := (de_struct_ok refs gs (InParts.nodup hgs) mv (uniqueKeys_map.1 huv).1 _).1 h1
        exact .part (ihg mv ds huv hds) (ih m xs hu hxs)
      | _ => simp [de, deStruct] at h1
  | @table n t fs ht _ _ ih =>
    intro m xs hu h
    cases h with | @cons _ x _ xs hx hxs =>
    obtain ⟨xn, xd⟩ := x
    rw [fieldRead_option] at hx
    obtain ⟨rfl, hx⟩ := hx
    simp only [] at hx
    refine .table ?_ (ih m xs hu hxs)
    rcases hx with ⟨-, h⟩ | ⟨-, h⟩ | ⟨v, x, h0, -, h1, h2⟩
    · exact Or.inl h
    · exact Or.inl h
    · subst h2
      have huv := uniqueKeys_get hu h0
      obtain ⟨mv, es, rfl, rfl, hes⟩ := (de_table huv).1 h1
      refine Or.inr ?_
      have hnd := (uniqueKeys_map.1 huv).1
      obtain ⟨l, h1, h2⟩ := table_names hes
      exact ⟨l, by rw [h1], by rw [h2]; exact hnd⟩

theorem fits_nothing {fs : List (String × Ty)} (hf : InParts fs) : FitsParts fs (nothingGiven fs) := by
  induction hf with
  | nil => exact .nil
  | piece ht _ _ ih => exact .piece ht (by rintro y h; cases h) (Or.inl rfl) ih
  | part _ _ _ _ ih => exact .empty ih
  | table _ _ _ ih => exact .table (Or.inl rfl) ih

theorem fits_overlaid {fs : List (String × Ty)} {xs ys : List (String × Data)} (hx : FitsParts fs xs) (hy : FitsParts fs ys) :
    FitsParts fs (overlaidFields xs ys) := by
  induction hy generalizing xs with
  | nil => exact .nil
  | @piece n t fs d ys ht h1 h2 _ ih =>
    cases hx with
    | @piece _ _ _ a xs _ g1 g2 hxs =>
      rw [show overlaidFields ((n, a) :: xs) ((n, d) :: ys) = (n, overlaidWith a d) :: overlaidFields xs ys by rw [overlaidFields, overlaidField]]
      rcases h2 with rfl | ⟨y, rfl⟩
      · rw [overlaid_none]; exact .piece ht g1 g2 (ih hxs)
      · rw [overlaid_some, overlaid_plain (h1 y rfl)]; exact .piece ht h1 (Or.inr ⟨y, rfl⟩) (ih hxs)
    | empty => cases ht
    | part => cases ht
    | table => cases ht
  | @empty n gs fs ys _ ih =>
    have key : ∀ a xs, overlaidFields ((n, a) :: xs) ((n, .none) :: ys) = (n, a) :: overlaidFields xs ys := by
      intro a xs; rw [overlaidFields, overlaidField, overlaid_none]
    cases hx with
    | piece ht => cases ht
    | empty hxs => rw [key]; exact .empty (ih hxs)
    | part ha hxs => rw [key]; exact .part ha (ih hxs)
  | @part n gs fs as ys hfit _ iha ih =>
    cases hx with
    | piece ht => cases ht
    | empty hxs =>
      rw [overlaidFields, overlaidField, overlaid_some]
      exact .part hfit (ih hxs)
    | part ha hxs =>
      rw [overlaidFields, overlaidField, overlaid_some]
      exact .part (iha ha) (ih hxs)
  | @table n t fs d ys hd _ ih =>
    cases hx with
    | piece ht => cases ht
    | @table _ _ _ a xs ha hxs =>
      rw [show overlaidFields ((n, a) :: xs) ((n, d) :: ys) = (n, overlaidWith a d) :: overlaidFields xs ys by rw [overlaidFields, overlaidField]]
      refine .table ?_ (ih hxs)
      rcases hd with rfl | ⟨l, rfl, hl⟩
      · rw [overlaid_none]; exact ha
      · rw [overlaid_some]
        rcases ha with rfl | ⟨l', rfl, hl'⟩
        · exact Or.inr ⟨l, rfl, hl⟩
        · obtain ⟨c, h1, h2, -⟩ := overlaid_table l l' hl' hl
          exact Or.inr ⟨c, by rw [← h1]; rfl, h2⟩

theorem fits_names {fs : List (String × Ty)} {xs : List (String × Data)} (h : FitsParts fs xs) : xs.map Prod.fst = fs.map Prod.fst := by
  induction h with
  | nil => rfl
  | piece _ _ _ _ ih => simp [ih]
  | empty _ ih => simp [ih]
  | part _ _ _ ih => simp [ih]
  | table _ _ ih => simp [ih]

theorem given_cons (n m : String) (d : Data) (xs : List (String × Data)) :
    given ((m, d) :: xs) n = if m = n then (match d with | .some d => some d | _ => none) else given xs n := by
  unfold given
  by_cases h : m = n
  · rw [List.find?_cons_of_pos (by simpa using h), if_pos h]
    cases d <;> rfl
  · rw [List.find?_cons_of_neg (by simpa using h), if_neg h]

theorem gives_cons (n m : String) (d : Data) (xs : List (String × Data)) (p : List String) (h : m ≠ n) :
    gives ((m, d) :: xs) (n :: p) = gives xs (n :: p) := by
  cases p with
  | nil => simp only [gives]; rw [given_cons, if_neg h]
  | cons q p => simp only [gives]; rw [given_cons, if_neg h]

/-- Below a section that is given. -/
theorem gives_inside (n : String) (as xs : List (String × Data)) {fs : List (String × Ty)} {p : List String} (hp : PieceAt fs p) :
    gives ((n, .some (.struct as)) :: xs) (n :: p) = gives as p := by
  cases p with
  | nil => cases hp
  | cons q p => simp only [gives]; rw [given_cons, if_pos rfl]

theorem gives_empty (n : String) (xs : List (String × Data)) (p : List String) : gives ((n, .none) :: xs) (n :: p) = none := by
  cases p with
  | nil => simp only [gives]; rw [given_cons, if_pos rfl]
  | cons q p => simp only [gives]; rw [given_cons, if_pos rfl]

theorem pieceAt_cons {n : String} {T : Ty} {fs : List (String × Ty)} {p : List String} (hn : n ∉ fs.map Prod.fst)
    (h : PieceAt ((n, T) :: fs) p) : (∃ q, p = n :: q ∧ ((q = [] ∧ ∃ t, T = .option t ∧ OnePiece t) ∨
      (∃ gs, T = .option (.struct gs) ∧ PieceAt gs q) ∨ ∃ t k, T = .option (.map .string t) ∧ q = [k])) ∨ (PieceAt fs p ∧ ∃ m q, p = m :: q ∧ n ≠ m) := by
  have ne : ∀ {m : String} {U : Ty}, (m, U) ∈ fs → n ≠ m := by
    rintro m U hm rfl; exact hn (List.mem_map.2 ⟨_, hm, rfl⟩)
  cases h with
  | here hm ht =>
    rcases List.mem_cons.1 hm with e | hm
    · cases e; exact Or.inl ⟨[], rfl, Or.inl ⟨rfl, _, rfl, ht⟩⟩
    · exact Or.inr ⟨.here hm ht, _, _, rfl, ne hm⟩
  | inside hm hp =>
    rcases List.mem_cons.1 hm with e | hm
    · cases e; exact Or.inl ⟨_, rfl, Or.inr (Or.inl ⟨_, rfl, hp⟩)⟩
    · exact Or.inr ⟨.inside hm hp, _, _, rfl, ne hm⟩
  | entry k hm =>
    rcases List.mem_cons.1 hm with e | hm
    · cases e; exact Or.inl ⟨_, rfl, Or.inr (Or.inr ⟨_, k, rfl, rfl⟩)⟩
    · exact Or.inr ⟨.entry k hm, _, _, rfl, ne hm⟩

theorem gives_overlaid {fs : List (String × Ty)} {xs ys : List (String × Data)} (hy : FitsParts fs ys) :
    InParts fs → FitsParts fs xs → ∀ p, PieceAt fs p → gives (overlaidFields xs ys) p = (gives ys p).or (gives xs p) := by
  induction hy generalizing xs with
  | nil => intro _ _ p hp; cases hp <;> contradiction
  | @piece n t fs d ys ht h1 h2 _ ih =>
    intro hf hx p hp
    cases hx with
    | empty => cases ht
    | part => cases ht
    | table => cases ht
    | @piece _ _ _ a xs _ g1 g2 hxs =>
      have hf' : InParts fs ∧ n ∉ fs.map Prod.fst := by cases hf <;> exact ⟨‹_›, ‹_›⟩
      rw [show overlaidFields ((n, a) :: xs) ((n, d) :: ys) = (n, overlaidWith a d) :: overlaidFields xs ys by rw [overlaidFields, overlaidField]]
      rcases pieceAt_cons hf'.2 hp with ⟨q, rfl, ⟨rfl, -⟩ | ⟨gs, e, -⟩ | ⟨_, _, e, -⟩⟩ | ⟨hp, m, q, rfl, hne⟩
      · simp only [gives, given_cons, if_true]
        rcases h2 with rfl | ⟨y, rfl⟩
        · rw [overlaid_none]; rfl
        · rw [overlaid_some, overlaid_plain (h1 y rfl)]; rfl
      · cases e; cases ht
      · cases e; cases ht
      · rw [gives_cons _ _ _ _ _ hne, gives_cons _ _ _ _ _ hne, gives_cons _ _ _ _ _ hne]
        exact ih hf'.1 hxs _ hp
  | @empty n gs fs ys _ ih =>
    intro hf hx p hp
    have hf' : InParts fs ∧ n ∉ fs.map Prod.fst := by cases hf <;> exact ⟨‹_›, ‹_›⟩
    obtain ⟨a, xs', rfl, hxs⟩ : ∃ a xs', xs = (n, a) :: xs' ∧ FitsParts fs xs' := by
      cases hx with
      | piece ht => cases ht
      | empty h => exact ⟨_, _, rfl, h⟩
      | part _ h => exact ⟨_, _, rfl, h⟩
    rw [show overlaidFields ((n, a) :: xs') ((n, .none) :: ys) = (n, a) :: overlaidFields xs' ys by
      rw [overlaidFields, overlaidField, overlaid_none]]
    rcases pieceAt_cons hf'.2 hp with ⟨q, rfl, ⟨rfl, t, e, ht⟩ | ⟨hs, e, hq⟩ | ⟨_, _, e, -⟩⟩ | ⟨hp, m, q, rfl, hne⟩
    · cases e; cases ht
    · rw [gives_empty]
      cases q with
      | nil => cases hq
      | cons r q => simp only [gives, given_cons, if_true]; rfl
    · cases e
    · rw [gives_cons _ _ _ _ _ hne, gives_cons _ _ _ _ _ hne, gives_cons _ _ _ _ _ hne]
      exact ih hf'.1 hxs _ hp
  | @part n gs fs as ys hfit _ iha ih =>
    intro hf hx p hp
    have hf' : InParts gs ∧ InParts fs ∧ n ∉ fs.map Prod.fst := by
      cases hf with
      | piece ht => cases ht
      | part a b c => exact ⟨a, b, c⟩
    cases hx with
    | piece ht => cases ht
    | @empty _ _ _ xs hxs =>
      rw [show overlaidFields ((n, .none) :: xs) ((n, .some (.struct as)) :: ys) = (n, .some (.struct as)) :: overlaidFields xs ys by
        rw [overlaidFields, overlaidField, overlaid_some]; rfl]
      rcases pieceAt_cons hf'.2.2 hp with ⟨q, rfl, ⟨rfl, t, e, ht⟩ | ⟨hs, e, hq⟩ | ⟨_, _, e, -⟩⟩ | ⟨hp, m, q, rfl, hne⟩
      · cases e; cases ht
      · rw [gives_empty, gives_inside n as _ hq, gives_inside n as _ hq, Option.or_none]
      · cases e
      · rw [gives_cons _ _ _ _ _ hne, gives_cons _ _ _ _ _ hne, gives_cons _ _ _ _ _ hne]
        exact ih hf'.2.1 hxs _ hp
    | @part _ _ _ bs xs hbs hxs =>
      rw [show overlaidFields ((n, .some (.struct bs)) :: xs) ((n, .some (.struct as)) :: ys) =
          (n, .some (.struct (overlaidFields bs as))) :: overlaidFields xs ys by rw [overlaidFields, overlaidField, overlaid_some]; rfl]
      rcases pieceAt_cons hf'.2.2 hp with ⟨q, rfl, ⟨rfl, t, e, ht⟩ | ⟨hs, e, hq⟩ | ⟨_, _, e, -⟩⟩ | ⟨hp, m, q, rfl, hne⟩
      · cases e; cases ht
      · cases e
        rw [gives_inside n _ _ hq, gives_inside n _ _ hq, gives_inside n _ _ hq]
        exact iha hf'.1 hbs _ hq
      · cases e
      · rw [gives_cons _ _ _ _ _ hne, gives_cons _ _ _ _ _ hne, gives_cons _ _ _ _ _ hne]
        exact ih hf'.2.1 hxs _ hp
  | @table n t fs d ys hd _ ih =>
    intro hf hx p hp
    have hf' : InParts fs ∧ n ∉ fs.map Prod.fst := by cases hf <;> exact ⟨‹_›, ‹_›⟩
    cases hx with
    | piece ht => cases ht
    | @table _ _ _ a xs ha hxs =>
      rw [show overlaidFields ((n, a) :: xs) ((n, d) :: ys) = (n, overlaidWith a d) :: overlaidFields xs ys by rw [overlaidFields, overlaidField]]
      rcases pieceAt_cons hf'.2 hp with ⟨q, rfl, ⟨rfl, t, e, ht⟩ | ⟨hs, e, hq⟩ | ⟨_, k, e, rfl⟩⟩ | ⟨hp, m, q, rfl, hne⟩
      · cases e; cases ht
      · cases e
      · simp only [gives, given_cons, if_true]
        rcases hd with rfl | ⟨l, rfl, hl⟩
        · rw [overlaid_none]; rfl
        · rw [overlaid_some]
          rcases ha with rfl | ⟨l', rfl, hl'⟩
          · show dchild (.map (tableOf l)) (.key (.str k)) = (dchild (.map (tableOf l)) (.key (.str k))).or none
            rw [Option.or_none]
          · obtain ⟨c, h1, -, h3⟩ := overlaid_table l l' hl' hl
            show dchild (.map (overlaidTable (tableOf l') (tableOf l))) (.key (.str k)) =
              (dchild (.map (tableOf l)) (.key (.str k))).or (dchild (.map (tableOf l')) (.key (.str k)))
            rw [h1, dchild_table, dchild_table, dchild_table, h3]
      · rw [gives_cons _ _ _ _ _ hne, gives_cons _ _ _ _ _ hne, gives_cons _ _ _ _ _ hne]
        exact ih hf'.1 hxs _ hp

theorem gives_nothing {fs : List (String × Ty)} (hf : InParts fs) : ∀ p, PieceAt fs p → gives (nothingGiven fs) p = none := by
  induction hf with
  | nil => intro p hp; cases hp <;> contradiction
  | piece ht _ hn ih =>
    intro p hp
    rcases pieceAt_cons hn hp with ⟨q, rfl, -⟩ | ⟨hp, m, q, rfl, hne⟩
    · exact gives_empty _ _ _
    · exact (gives_cons _ _ _ _ _ hne).trans (ih _ hp)
  | part _ _ hn _ ih =>
    intro p hp
    rcases pieceAt_cons hn hp with ⟨q, rfl, -⟩ | ⟨hp, m, q, rfl, hne⟩
    · exact gives_empty _ _ _
    · exact (gives_cons _ _ _ _ _ hne).trans (ih _ hp)
  | table _ _ hn ih =>
    intro p hp
    rcases pieceAt_cons hn hp with ⟨q, rfl, -⟩ | ⟨hp, m, q, rfl, hne⟩
    · exact gives_empty _ _ _
    · exact (gives_cons _ _ _ _ _ hne).trans (ih _ hp)

theorem fits_of_de {structs : Nat → List (String × Ty)} {k : Nat} {fs : List (String × Ty)} (hf : InParts fs) {x : Value} (hu : UniqueKeys x)
    {s : List (String × Data)} (h : deAt structs k (.struct fs) x = .ok (.struct s)) : FitsParts fs s := by
  unfold deAt at h
  cases x with
  | map m =>
    obtain ⟨s', e, h1⟩ := (de_struct_ok _ fs (InParts.nodup hf) m (uniqueKeys_map.1 hu).1 _).1 h
    cases e
    exact fits_read _ hf m _ hu h1
  | _ => simp [de, deStruct] at h

theorem gives_fold {fs : List (String × Ty)} (hf : InParts fs) (ss : List (List (String × Data))) (hss : ∀ s ∈ ss, FitsParts fs s) :
    ∀ s0, FitsParts fs s0 → FitsParts fs (ss.foldl overlaidFields s0) ∧ ∀ p, PieceAt fs p →
      gives (ss.foldl overlaidFields s0) p = ((ss.filterMap (gives · p)).getLast?).or (gives s0 p) := by
  induction ss with
  | nil => intro s0 h0; exact ⟨h0, fun p _ => rfl⟩
  | cons s ss ih =>
    intro s0 h0
    have hs : FitsParts fs s := hss s (by simp)
    obtain ⟨h1, h2⟩ := ih (fun x hx => hss x (by simp [hx])) _ (fits_overlaid h0 hs)
    refine ⟨h1, fun p hp => ?_⟩
    rw [List.foldl_cons, h2 p hp, gives_overlaid hs hf h0 p hp, List.filterMap_cons]
    cases hg : gives s p with
    | none => rfl
    | some d =>
      simp only [List.getLast?_cons]
      cases h : (ss.filterMap (gives · p)).getLast? <;> simp

/-- **C114.** Piece by piece: the settings read from a built value give for every field what the last of the layers gives that gives anything for it. -/
theorem C114_piece (b : Build) (fm : Formats) (calls : List RegCall) (w : World) (skip : Bool) (v : Value)
    (h : (register b fm calls).buildValue w skip = .ok v) (hp : ∀ e ∈ firsts (offers b fm calls), Proper e.2)
    (structs : Nat → List (String × Ty)) (k : Nat) (fs : List (String × Ty)) (hf : InParts fs) (settings : List (List (String × Data)))
    (hs : List.Forall₂ (fun (x : Value) s => (∀ p, ¬ NullEntry x p) ∧ deAt structs k (.struct fs) x = .ok (.struct s))
      ((firsts (offers b fm calls)).filterMap fun e => (e.2.readValue w).toOption) settings) :
    ∃ ds, deAt structs k (.struct fs) v = .ok (.struct ds) ∧
      ∀ p, PieceAt fs p → gives ds p = (settings.filterMap (gives · p)).getLast? := by
  refine ⟨_, C114_build b fm calls w skip v h hp structs k fs hf settings hs, fun p hpa => ?_⟩
  have hss : ∀ s ∈ settings, FitsParts fs s := by
    intro s hs'
    obtain ⟨i, hi, rfl⟩ := List.mem_iff_getElem.1 hs'
    have hl := hs.length_eq
    have hx := (List.forall₂_iff_get.1 hs).2 i (by omega) hi
    simp only [List.get_eq_getElem] at hx
    obtain ⟨e, he, hr⟩ := List.mem_filterMap.1 (List.getElem_mem (l := (firsts (offers b fm calls)).filterMap fun e => (e.2.readValue w).toOption) (n := i) (by omega))
    refine fits_of_de hf ?_ hx.2
    cases hr' : e.2.readValue w with
    | error y => rw [hr'] at hr; cases hr
    | ok y => rw [hr'] at hr; exact Option.some.inj hr ▸ hp e he w y hr'
  rw [(gives_fold hf settings hss _ (fits_nothing hf)).2 p hpa, gives_nothing hf p hpa, Option.or_none]

theorem overlaid_map_some (a : Data) (ys : List (Data × Data)) : ∃ e, overlaidSome a (.map ys) = .some e := by
  cases a with
  | some x => cases x <;> exact ⟨_, rfl⟩
  | _ => exact ⟨_, rfl⟩

theorem complete_below {fs : List (String × Ty)} {xs as : List (String × Data)} (hc : Complete fs xs as) :
    ∀ {ys}, FitsParts fs ys → ∃ bs, Complete fs (overlaidFields xs ys) bs := by
  induction hc with
  | nil => intro ys hy; cases hy; exact ⟨[], by rw [overlaidFields]; exact .nil⟩
  | @piece n t fs d xs as ht _ ih =>
    intro ys hy
    cases hy with
    | @piece _ _ _ b ys _ g1 g2 hys =>
      obtain ⟨bs, hbs⟩ := ih hys
      rw [overlaidFields, overlaidField]
      rcases g2 with rfl | ⟨y, rfl⟩
      · rw [overlaid_none]; exact ⟨_, .piece ht hbs⟩
      · rw [overlaid_some, overlaid_plain (g1 y rfl)]; exact ⟨_, .piece ht hbs⟩
    | empty => cases ht
    | part => cases ht
    | table => cases ht
  | @part n gs fs as' bs' xs as _ _ ih1 ih2 =>
    intro ys hy
    cases hy with
    | piece ht => cases ht
    | empty hys =>
      obtain ⟨bs, hbs⟩ := ih2 hys
      rw [overlaidFields, overlaidField, overlaid_none]
      exact ⟨_, .part (by assumption) hbs⟩
    | part hin hys =>
      obtain ⟨bs, hbs⟩ := ih2 hys
      obtain ⟨cs, hcs⟩ := ih1 hin
      rw [overlaidFields, overlaidField, overlaid_some]
      exact ⟨_, .part hcs hbs⟩
  | @table n t fs d xs as ht _ ih =>
    intro ys hy
    cases hy with
    | piece ht => cases ht
    | @table _ _ _ b ys hb hys =>
      obtain ⟨bs, hbs⟩ := ih hys
      rw [overlaidFields, overlaidField]
      rcases hb with rfl | ⟨l, rfl, -⟩
      · rw [overlaid_none]; exact ⟨_, .table ht hbs⟩
      · rw [overlaid_some]
        obtain ⟨e, he⟩ := overlaid_map_some (.some d) (tableOf l)
        exact ⟨_, by rw [he]; exact .table ht hbs⟩

theorem complete_above {fs : List (String × Ty)} {ys as : List (String × Data)} (hc : Complete fs ys as) :
    ∀ {xs}, FitsParts fs xs → FitsParts fs ys → ∃ bs, Complete fs (overlaidFields xs ys) bs := by
  induction hc with
  | nil => intro xs hx _; exact ⟨[], by rw [overlaidFields]; exact .nil⟩
  | @piece n t fs d ys as ht _ ih =>
    intro xs hx hy
    cases hy with
    | @piece _ _ _ _ _ _ g1 g2 hys =>
      cases hx with
      | @piece _ _ _ a xs _ _ _ hxs =>
        obtain ⟨bs, hbs⟩ := ih hxs hys
        rw [overlaidFields, overlaidField, overlaid_some, overlaid_plain (g1 d rfl)]
        exact ⟨_, .piece ht hbs⟩
      | empty => cases ht
      | part => cases ht
      | table => cases ht
    | part => cases ht
    | table => cases ht
  | @part n gs fs as' bs' ys as hsub _ ih1 ih2 =>
    intro xs hx hy
    cases hy with
    | piece ht => cases ht
    | part hin hys =>
      cases hx with
      | piece ht => cases ht
      | empty hxs =>
        obtain ⟨bs, hbs⟩ := ih2 hxs hys
        rw [overlaidFields, overlaidField, overlaid_some]
        exact ⟨_, .part hsub hbs⟩
      | part hin' hxs =>
        obtain ⟨bs, hbs⟩ := ih2 hxs hys
        obtain ⟨cs, hcs⟩ := ih1 hin' hin
        rw [overlaidFields, overlaidField, overlaid_some]
        exact ⟨_, .part hcs hbs⟩
  | @table n t fs d ys as ht _ ih =>
    intro xs hx hy
    cases hy with
    | piece ht => cases ht
    | @table _ _ _ b ys hb hys =>
      cases hx with
      | piece ht => cases ht
      | @table _ _ _ a xs ha hxs =>
        obtain ⟨bs, hbs⟩ := ih hxs hys
        rw [overlaidFields, overlaidField, overlaid_some]
        rcases hb with hb | ⟨l, hb, -⟩
        · cases hb
        · cases hb
          obtain ⟨e, he⟩ := overlaid_map_some a (tableOf l)
          exact ⟨_, by rw [he]; exact .table ht hbs⟩

theorem complete_fold {fs : List (String × Ty)} (ss : List (List (String × Data))) (hss : ∀ s ∈ ss, FitsParts fs s) :
    ∀ s0 as, Complete fs s0 as → ∃ bs, Complete fs (ss.foldl overlaidFields s0) bs := by
  induction ss with
  | nil => intro s0 as h; exact ⟨as, h⟩
  | cons s ss ih =>
    intro s0 as h
    obtain ⟨bs, hbs⟩ := complete_below h (hss s List.mem_cons_self)
    exact ih (fun x hx => hss x (List.mem_cons_of_mem _ hx)) _ _ hbs

/-- **C114.** One layer that gives everything is enough: the full settings can then be read from the built value, whatever the other layers leave
out, as long as what they do give can be read. -/
theorem C114_one_suffices (b : Build) (fm : Formats) (calls : List RegCall) (w : World) (skip : Bool) (v : Value)
    (h : (register b fm calls).buildValue w skip = .ok v) (hp : ∀ e ∈ firsts (offers b fm calls), Proper e.2)
    (structs : Nat → List (String × Ty)) (k : Nat) (fs gs : List (String × Ty)) (hf : InParts fs) (hr : Required fs gs)
    (hs : ∀ e ∈ firsts (offers b fm calls), ∀ x, e.2.readValue w = .ok x →
      (∀ p, ¬ NullEntry x p) ∧ ∃ d, deAt structs k (.struct fs) x = .ok d)
    (e : String × Layer) (he : e ∈ firsts (offers b fm calls)) (x : Value) (hx : e.2.readValue w = .ok x) (d : Data)
    (hd : deAt structs k (.struct gs) x = .ok d) : ∃ d', deAt structs k (.struct gs) v = .ok d' := by
  have isStruct : ∀ {gs : List (String × Ty)} {x : Value} {d : Data}, (gs.map Prod.fst).Nodup → UniqueKeys x → deAt structs k (.struct gs) x = .ok d →
      ∃ s, d = .struct s := by
    intro gs x d hn hu h
    unfold deAt at h
    cases x with
    | map m =>
      obtain ⟨s, rfl, -⟩ := (de_struct_ok _ gs hn m (uniqueKeys_map.1 hu).1 _).1 h
      exact ⟨s, rfl⟩
    | _ => simp [de, deStruct] at h
  have hg : (gs.map Prod.fst).Nodup := by rw [required_names hr]; exact InParts.nodup hf
  have hread : ∀ x ∈ (firsts (offers b fm calls)).filterMap (fun e => (e.2.readValue w).toOption),
      ∃ s, (∀ p, ¬ NullEntry x p) ∧ deAt structs k (.struct fs) x = .ok (.struct s) := by
    intro x hx
    obtain ⟨e, he, hx⟩ := List.mem_filterMap.1 hx
    cases hv : e.2.readValue w with
    | error er => rw [hv] at hx; cases hx
    | ok y =>
      rw [hv] at hx; cases hx
      obtain ⟨h1, d, h2⟩ := hs e he x hv
      obtain ⟨s, rfl⟩ := isStruct (InParts.nodup hf) (hp e he w x hv) h2
      exact ⟨s, h1, h2⟩
  obtain ⟨settings, hset⟩ := forall2_exists hread
  have hfit : ∀ s ∈ settings, FitsParts fs s := by
    intro s hs'
    obtain ⟨x, hx, -, h2⟩ := forall2_right hset s hs'
    obtain ⟨e, he, hx⟩ := List.mem_filterMap.1 hx
    cases hv : e.2.readValue w with
    | error er => rw [hv] at hx; cases hx
    | ok y => rw [hv] at hx; cases hx; exact fits_of_de hf (hp e he w x hv) h2
  obtain ⟨ys, rfl⟩ := isStruct hg (hp e he w x hx) hd
  obtain ⟨xs, h1, h2⟩ := (C114_required structs k fs gs hf hr x (hp e he w x hx) ys).1 hd
  have hxm : x ∈ (firsts (offers b fm calls)).filterMap (fun e => (e.2.readValue w).toOption) :=
    List.mem_filterMap.2 ⟨e, he, by rw [hx]; rfl⟩
  obtain ⟨s, hsm, -, h3⟩ := forall2_left hset x hxm
  rw [h1] at h3
  cases h3
  obtain ⟨before, after, rfl⟩ := List.append_of_mem hsm
  obtain ⟨as, has⟩ := complete_above h2 (gives_fold hf before (fun s hs => hfit s (by simp [hs])) _ (fits_nothing hf)).1 (hfit xs hsm)
  obtain ⟨bs, hbs⟩ := complete_fold after (fun s hs => hfit s (by simp [hs])) _ _ has
  refine ⟨.struct bs, (C114_settings b fm calls w skip v h hp structs k fs gs hf hr _ hset bs).2 ?_⟩
  rw [List.foldl_append, List.foldl_cons]
  exact hbs

/-! ## A concrete case -/

/-- Settings with a section, all optional, and the same settings in full. -/
def exParts : List (String × Ty) := [("port", .option (.int .u16)), ("ui", .option (.struct [("dark", .option .bool), ("lang", .option .string)]))]
def exFull : List (String × Ty) := [("port", .int .u16), ("ui", .struct [("dark", .bool), ("lang", .string)])]

theorem exParts_inParts : InParts exParts :=
  .piece (.int _) (.part (.piece .bool (.piece .string .nil (by simp)) (by simp)) .nil (by simp)) (by simp)
theorem exParts_required : Required exParts exFull :=
  .piece (.int _) (.part (.piece .bool (.piece .string .nil)) .nil)

/-- Defaults, a layer that changes the port (as text, as the environment does), and one that changes an entry of the section. -/
def exPartCalls : List RegCall :=
  [.memory "d" (.map [("port", .integer ⟨80, by decide⟩), ("ui", .map [("dark", .boolean false), ("lang", .string "en")])]),
   .memory "e" (.map [("port", .string "8080"), ("other", .array [])]), .memory "u" (.map [("ui", .map [("dark", .boolean true)])])]

def exPartSettings : List (List (String × Data)) :=
  [[("port", .some (.int .u16 ⟨80, by decide⟩)), ("ui", .some (.struct [("dark", .some (.bool false)), ("lang", .some (.str "en"))]))],
   [("port", .some (.int .u16 ⟨8080, by decide⟩)), ("ui", .none)],
   [("port", .none), ("ui", .some (.struct [("dark", .some (.bool true)), ("lang", .none)]))]]

theorem noNull_of_leaves {m : Entries} (h : ∀ e ∈ m, e.2 ≠ .none ∧ ∀ p, ¬ NullEntry e.2 p) : ∀ p, ¬ NullEntry (.map m) p := by
  rintro p ⟨⟨q, k, rfl⟩, hv⟩
  cases q with
  | nil =>
    rw [List.nil_append, view_key_map] at hv
    cases hg : hmGet m k with
    | none => rw [hg] at hv; cases hv
    | some x =>
      rw [hg] at hv
      have hv' : head x = .none := Option.some.inj hv
      exact (h _ (hmGet_mem hg)).1 (by cases x <;> simp [head] at hv' ⊢)
  | cons s q =>
    cases s with
    | idx i => cases hv
    | key j =>
      rw [List.cons_append, view_key_map] at hv
      cases hg : hmGet m j with
      | none => rw [hg] at hv; cases hv
      | some x => rw [hg] at hv; exact (h _ (hmGet_mem hg)).2 _ ⟨⟨q, k, rfl⟩, hv⟩

theorem noNull_scalar {v : Value} (h : ∀ s, child v s = none) (h0 : v ≠ .none) : v ≠ .none ∧ ∀ p, ¬ NullEntry v p := by
  refine ⟨h0, ?_⟩
  rintro p ⟨⟨q, k, rfl⟩, hv⟩
  cases q with
  | nil => rw [List.nil_append, view_cons, h] at hv; cases hv
  | cons s q => rw [List.cons_append, view_cons, h] at hv; cases hv

theorem exPart_reads (w : World) :
    List.Forall₂ (fun (x : Value) s => (∀ p, ¬ NullEntry x p) ∧ deAt (fun _ => []) 1 (.struct exParts) x = .ok (.struct s))
      ((firsts (offers exB1 exFormats exPartCalls)).filterMap fun e => (e.2.readValue w).toOption) exPartSettings := by
  have e : ((firsts (offers exB1 exFormats exPartCalls)).filterMap fun e => (e.2.readValue w).toOption) =
    [.map [("port", .integer ⟨80, by decide⟩), ("ui", .map [("dark", .boolean false), ("lang", .string "en")])],
     .map [("port", .string "8080"), ("other", .array [])], .map [("ui", .map [("dark", .boolean true)])]] := by rfl
  rw [e]
  have leaf : ∀ v : Value, (∀ s, child v s = none) → v ≠ .none → v ≠ .none ∧ ∀ p, ¬ NullEntry v p := fun v => noNull_scalar
  have cb : ∀ b s, child (.boolean b) s = none := fun b s => by cases s <;> rfl
  have cs : ∀ t s, child (.string t) s = none := fun b s => by cases s <;> rfl
  have ci : ∀ t s, child (.integer t) s = none := fun b s => by cases s <;> rfl
  have ca : ∀ s, child (.array []) s = none := fun s => by cases s <;> rfl
  refine .cons ⟨?_, by rfl⟩ (.cons ⟨?_, by rfl⟩ (.cons ⟨?_, by rfl⟩ .nil))
  · refine noNull_of_leaves fun e he => ?_
    simp only [List.mem_cons, List.not_mem_nil, or_false] at he
    rcases he with rfl | rfl
    · exact leaf _ (ci _) (by simp)
    · refine ⟨by simp, noNull_of_leaves fun e he => ?_⟩
      simp only [List.mem_cons, List.not_mem_nil, or_false] at he
      rcases he with rfl | rfl
      · exact leaf _ (cb _) (by simp)
      · exact leaf _ (cs _) (by simp)
  · refine noNull_of_leaves fun e he => ?_
    simp only [List.mem_cons, List.not_mem_nil, or_false] at he
    rcases he with rfl | rfl
    · exact leaf _ (cs _) (by simp)
    · exact leaf _ ca (by simp)
  · refine noNull_of_leaves fun e he => ?_
    simp only [List.mem_cons, List.not_mem_nil, or_false] at he
    subst he
    refine ⟨by simp, noNull_of_leaves fun e he => ?_⟩
    simp only [List.mem_cons, List.not_mem_nil, or_false] at he
    subst he
    exact leaf _ (cb _) (by simp)

theorem exPart_proper : ∀ e ∈ firsts (offers exB1 exFormats exPartCalls), Proper e.2 := by
  have e1 : firsts (offers exB1 exFormats exPartCalls) = exPartCalls.filterMap (RegCall.offer exB1 exFormats) := by rfl
  intro e he w v hv
  rw [e1] at he
  simp only [exPartCalls, List.filterMap_cons, RegCall.offer, List.filterMap_nil, List.mem_cons, List.not_mem_nil, or_false] at he
  rcases he with rfl | rfl | rfl <;> cases hv <;> simp [UniqueKeys, UniqueKeysMap, UniqueKeysEntry, UniqueKeysList]

/-- **C114** at work: the port of the second layer, the colour of the third, the language of the first. -/
example (w : World) (skip : Bool) (v : Value) (h : (register exB1 exFormats exPartCalls).buildValue w skip = .ok v) :
    deAt (fun _ => []) 1 (.struct exFull) v =
      .ok (.struct [("port", .int .u16 ⟨8080, by decide⟩), ("ui", .struct [("dark", .bool true), ("lang", .str "en")])]) :=
  (C114_settings exB1 exFormats exPartCalls w skip v h exPart_proper (fun _ => []) 1 exParts exFull exParts_inParts exParts_required
    exPartSettings (exPart_reads w) _).2 (.piece (.int _) (.part (.piece .bool (.piece .string .nil)) .nil))

example (w : World) : ∃ v, (register exB1 exFormats exPartCalls).buildValue w false = .ok v := ⟨_, rfl⟩

/-- The first layer alone gives everything. -/
example (w : World) (skip : Bool) (v : Value) (h : (register exB1 exFormats exPartCalls).buildValue w skip = .ok v) :
    ∃ d', deAt (fun _ => []) 1 (.struct exFull) v = .ok d' := by
  refine C114_one_suffices exB1 exFormats exPartCalls w skip v h exPart_proper (fun _ => []) 1 exParts exFull exParts_inParts exParts_required ?_
    ("d", .memory (.map [("port", .integer ⟨80, by decide⟩), ("ui", .map [("dark", .boolean false), ("lang", .string "en")])])) ?_ _ rfl
    (.struct [("port", .int .u16 ⟨80, by decide⟩), ("ui", .struct [("dark", .bool false), ("lang", .str "en")])]) (by rfl)
  · intro e he x hx
    have hm : x ∈ (firsts (offers exB1 exFormats exPartCalls)).filterMap (fun e => (e.2.readValue w).toOption) :=
      List.mem_filterMap.2 ⟨e, he, by rw [hx]; rfl⟩
    obtain ⟨s, -, h1, h2⟩ := forall2_left (exPart_reads w) x hm
    exact ⟨h1, _, h2⟩
  · rw [show firsts (offers exB1 exFormats exPartCalls) = exPartCalls.filterMap (RegCall.offer exB1 exFormats) by rfl]
    exact List.mem_cons_self

/-- Two layers with a table each: the entries of the second over those of the first. -/
example (w : World) (skip : Bool) (v : Value)
    (h : (register exB1 exFormats [.memory "d" (.map [("limits", .map [("a", .integer ⟨1, by decide⟩), ("b", .integer ⟨2, by decide⟩)])]),
      .memory "u" (.map [("limits", .map [("b", .string "3")])])]).buildValue w skip = .ok v) :
    ∃ ds, deAt (fun _ => []) 1 (.struct [("limits", .option (.map .string (.int .u8)))]) v = .ok (.struct ds) ∧
      gives ds ["limits", "a"] = some (.int .u8 ⟨1, by decide⟩) ∧ gives ds ["limits", "b"] = some (.int .u8 ⟨3, by decide⟩) ∧
      gives ds ["limits", "c"] = none := by
  have ci : ∀ t s, child (.integer t) s = none := fun b s => by cases s <;> rfl
  have cs : ∀ t s, child (.string t) s = none := fun b s => by cases s <;> rfl
  obtain ⟨ds, h1, h2⟩ := C114_piece exB1 exFormats _ w skip v h (by
      intro e he w v hv
      have e1 : firsts (offers exB1 exFormats [.memory "d" (.map [("limits", .map [("a", .integer ⟨1, by decide⟩), ("b", .integer ⟨2, by decide⟩)])]),
        .memory "u" (.map [("limits", .map [("b", .string "3")])])]) =
        [("d", .memory (.map [("limits", .map [("a", .integer ⟨1, by decide⟩), ("b", .integer ⟨2, by decide⟩)])])),
          ("u", .memory (.map [("limits", .map [("b", .string "3")])]))] := by rfl
      rw [e1] at he
      simp only [List.mem_cons, List.not_mem_nil, or_false] at he
      rcases he with rfl | rfl <;> cases hv <;> simp [UniqueKeys, UniqueKeysMap, UniqueKeysEntry, UniqueKeysList])
    (fun _ => []) 1 [("limits", .option (.map .string (.int .u8)))] (.table (.int _) .nil (by simp))
    [[("limits", .some (.map [(.str "a", .int .u8 ⟨1, by decide⟩), (.str "b", .int .u8 ⟨2, by decide⟩)]))],
      [("limits", .some (.map [(.str "b", .int .u8 ⟨3, by decide⟩)]))]]
    (.cons ⟨noNull_of_leaves (by
      intro e he
      simp only [List.mem_cons, List.not_mem_nil, or_false] at he
      subst he
      refine ⟨by simp, noNull_of_leaves fun e he => ?_⟩
      simp only [List.mem_cons, List.not_mem_nil, or_false] at he
      rcases he with rfl | rfl
      · exact noNull_scalar (ci _) (by simp)
      · exact noNull_scalar (ci _) (by simp)), by rfl⟩ (.cons ⟨noNull_of_leaves (by
      intro e he
      simp only [List.mem_cons, List.not_mem_nil, or_false] at he
      subst he
      refine ⟨by simp, noNull_of_leaves fun e he => ?_⟩
      simp only [List.mem_cons, List.not_mem_nil, or_false] at he
      subst he
      exact noNull_scalar (cs _) (by simp)), by rfl⟩ .nil))
  exact ⟨ds, h1, (h2 _ (.entry (t := .int .u8) "a" (by simp))).trans rfl, (h2 _ (.entry (t := .int .u8) "b" (by simp))).trans rfl, (h2 _ (.entry (t := .int .u8) "c" (by simp))).trans rfl⟩

/-- **C114.** The condition that the upper layer holds no `None` is needed: an entry that is `None` is read as "not given", but hides the
layer below. -/
theorem C114_none_hides : ∃ a b : Value, UniqueKeys a ∧ UniqueKeys b ∧
    deAt (fun _ => []) 1 (.struct [("x", .option .bool)]) a = .ok (.struct [("x", .some (.bool true))]) ∧
    deAt (fun _ => []) 1 (.struct [("x", .option .bool)]) b = .ok (.struct [("x", .none)]) ∧
    deAt (fun _ => []) 1 (.struct [("x", .option .bool)]) (a.merge b) = .ok (.struct [("x", .none)]) :=
  ⟨.map [("x", .boolean true)], .map [("x", .none)], by simp [UniqueKeys, UniqueKeysMap, UniqueKeysEntry],
    by simp [UniqueKeys, UniqueKeysMap, UniqueKeysEntry], by rfl, by rfl, by rfl⟩

end Verif.Props
