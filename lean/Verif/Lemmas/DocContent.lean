import Verif.Spec.Doc
import Verif.Lemmas.Doc
import Verif.Lemmas.Serde
import Verif.Lemmas.FloatExact
/-! # What the visitor makes of a document -/
namespace Verif
open Spec

theorem singleton_eq (c : Char) : String.ofList [c] = String.singleton c := rfl

theorem visitKey_iff {k : Doc} {s : String} : visitKey k = .ok s ↔ KeyText k s := by
  constructor
  · intro h
    cases k <;> simp only [visitKey] at h
    case char c => cases h; exact .char c
    case str t => cases h; exact .str s
    case bytes bs =>
      split at h
      · rename_i t ht
        cases h
        rw [utf8_of_ofUtf8 ht]; exact .bytes s
      · cases h
    all_goals cases h
  · rintro (s | c | s)
    · rfl
    · rfl
    · simp only [visitKey]
      have : ofUtf8 (s.toByteArray.data.toList) = some s := ofUtf8_utf8 s
      rw [this]

theorem keyText_unique {k : Doc} {s t : String} (h : KeyText k s) (h' : KeyText k t) : s = t := by
  have h1 := visitKey_iff.2 h
  rw [visitKey_iff.2 h'] at h1
  exact (Except.ok.inj h1).symm

/-- Success. -/
theorem visit_ok_iff (d : Doc) : (∃ v, visit d = .ok v) ↔ Accepted d := by
  induction d using Doc.ind with
  | bool b => exact ⟨fun _ => .bool b, fun _ => ⟨_, by rw [visit]⟩⟩
  | int t n => exact ⟨fun _ => .int t n, fun _ => by cases t <;> exact ⟨_, by rw [visit]⟩⟩
  | f32 x => exact ⟨fun _ => .f32 x, fun _ => ⟨_, by rw [visit]⟩⟩
  | f64 x => exact ⟨fun _ => .f64 x, fun _ => ⟨_, by rw [visit]⟩⟩
  | char c => exact ⟨fun _ => .char c, fun _ => ⟨_, by rw [visit]⟩⟩
  | str s => exact ⟨fun _ => .str s, fun _ => ⟨_, by rw [visit]⟩⟩
  | none => exact ⟨fun _ => .none, fun _ => ⟨_, by rw [visit]⟩⟩
  | unit => exact ⟨fun _ => .unit, fun _ => ⟨_, by rw [visit]⟩⟩
  | bytes bs =>
    constructor
    · rintro ⟨v, h⟩; rw [visit] at h; cases h
    · intro h; cases h
  | newtypeStruct d =>
    constructor
    · rintro ⟨v, h⟩; rw [visit] at h; cases h
    · intro h; cases h
  | enum =>
    constructor
    · rintro ⟨v, h⟩; rw [visit] at h; cases h
    · intro h; cases h
  | some d ih =>
    rw [visit]
    exact ⟨fun h => .some (ih.1 h), fun h => by cases h with | some h => exact ih.2 h⟩
  | seq ds ih =>
    rw [visit]
    constructor
    · rintro ⟨v, h⟩
      obtain ⟨xs, -, hp⟩ := (visitSeq_ok _ _ _).1 h
      exact .seq fun d hd => (ih d hd).1 (by obtain ⟨x, -, hx⟩ := hp.left d hd; exact ⟨x, hx⟩)
    · intro h
      cases h with
      | seq h =>
        obtain ⟨xs, hp⟩ := Pairs.of_forall (R := fun d x => visit d = .ok x) (fun d hd => (ih d hd).2 (h d hd))
        exact ⟨_, (visitSeq_ok _ _ _).2 ⟨xs, rfl, hp⟩⟩
  | map es ih =>
    rw [visit]
    constructor
    · rintro ⟨v, h⟩
      obtain ⟨kvs, -, hp⟩ := (visitMap_ok _ _ _).1 h
      refine .map (fun e he => ?_) (fun e he => ?_)
      · obtain ⟨kv, -, h1, -⟩ := hp.left e he; exact ⟨_, visitKey_iff.1 h1⟩
      · obtain ⟨kv, -, -, h2⟩ := hp.left e he; exact (ih e he).2.1 ⟨_, h2⟩
    · intro h
      cases h with
      | map h1 h2 =>
        obtain ⟨kvs, hp⟩ := Pairs.of_forall (as := es)
          (R := fun e (kv : String × Value) => visitKey e.1 = .ok kv.1 ∧ visit e.2 = .ok kv.2) (fun e he => by
            obtain ⟨k, hk⟩ := h1 e he
            obtain ⟨x, hx⟩ := (ih e he).2.2 (h2 e he)
            exact ⟨(k, x), visitKey_iff.2 hk, hx⟩)
        exact ⟨_, (visitMap_ok _ _ _).2 ⟨kvs, rfl, hp⟩⟩

/-! ## Floats -/

theorem widen_f32 (x : F32) : SameFloat x.1 (F64.ofF32 x).1 := by
  obtain ⟨x, hx⟩ := x
  cases x with
  | nan => exact Or.inl ⟨rfl, rfl⟩
  | inf s => exact Or.inr (Or.inl ⟨s, rfl, rfl⟩)
  | fin s m e =>
    obtain ⟨m', e', h1, h2⟩ := convert_f32 hx
    refine Or.inr (Or.inr ⟨s, m, e, m', e', rfl, h1, ?_⟩)
    show ratOf (.fin s m e) = ratOf (fmt64.convert (.fin s m e))
    rw [h1]
    simp only [ratOf]
    rw [mul_assoc, mul_assoc, h2]

theorem sameFloat_unique {x : FpRaw} {y z : F64} (h : SameFloat x y.1) (h' : SameFloat x z.1) : y = z := by
  obtain ⟨y, hy⟩ := y
  obtain ⟨z, hz⟩ := z
  apply Subtype.ext
  rcases h with ⟨h1, h2⟩ | ⟨s, h1, h2⟩ | ⟨s, m, e, m', e', h1, h2, h3⟩ <;>
    rcases h' with ⟨g1, g2⟩ | ⟨s', g1, g2⟩ | ⟨s', m2, e2, m2', e2', g1, g2, g3⟩ <;>
    simp only at h2 g2 <;> subst h2 <;> subst g2 <;> subst h1 <;> cases g1 <;> try rfl
  simp only at h3 g3
  rw [h3] at g3
  simp only [ratOf, Option.some.injEq, mul_assoc] at g3
  have hs : (if s = true then (-1:ℚ) else 1) ≠ 0 := by split <;> norm_num
  have := mul_left_cancel₀ hs g3
  obtain ⟨rfl, rfl⟩ := canon_inj fmt64 fmt64_ok (s := s) (s' := s) hy hz this
  rfl

/-! ## Content -/

theorem lastWins (kvs : Entries) : ∀ (acc : Entries) (k : String) (x : Value),
    hmGet (kvs.foldl (fun m kv => hmInsert m kv.1 kv.2) acc) k = some x ↔
      (∃ a b, kvs = a ++ (k, x) :: b ∧ k ∉ b.map Prod.fst) ∨ (k ∉ kvs.map Prod.fst ∧ hmGet acc k = some x) := by
  induction kvs with
  | nil => intro acc k x; simp
  | cons e r ih =>
    intro acc k x
    rw [List.foldl_cons, ih, hmGet_insert]
    constructor
    · rintro (⟨a, b, rfl, hb⟩ | ⟨hk, h⟩)
      · exact Or.inl ⟨e :: a, b, rfl, hb⟩
      · by_cases he : e.1 = k
        · simp only [he, if_true, Option.some.injEq] at h
          exact Or.inl ⟨[], r, by rw [← h, ← he]; rfl, hk⟩
        · rw [if_neg he] at h
          exact Or.inr ⟨by simp [hk]; exact fun h' => he h'.symm, h⟩
    · rintro (⟨a, b, h, hb⟩ | ⟨hk, h⟩)
      · cases a with
        | nil =>
          cases h
          exact Or.inr ⟨hb, by simp⟩
        | cons e' a =>
          cases h
          exact Or.inl ⟨a, b, rfl, hb⟩
      · simp only [List.map_cons, List.mem_cons, not_or] at hk
        exact Or.inr ⟨hk.2, by rw [if_neg (fun h' => hk.1 h'.symm)]; exact h⟩

theorem Pairs.split_right {α β : Type} {R : α → β → Prop} {a : List β} {x : β} {b : List β} : ∀ {as : List α},
    Pairs R as (a ++ x :: b) → ∃ a' x' b', as = a' ++ x' :: b' ∧ Pairs R a' a ∧ R x' x ∧ Pairs R b' b := by
  induction a with
  | nil => intro as h; cases h with | cons hr hp => exact ⟨[], _, _, rfl, .nil, hr, hp⟩
  | cons y a ih =>
    intro as h
    cases h with
    | cons hr hp =>
      obtain ⟨a', x', b', rfl, h1, h2, h3⟩ := ih hp
      exact ⟨_ :: a', x', b', rfl, .cons hr h1, h2, h3⟩

theorem Pairs.split_left {α β : Type} {R : α → β → Prop} {a : List α} {x : α} {b : List α} : ∀ {bs : List β},
    Pairs R (a ++ x :: b) bs → ∃ a' x' b', bs = a' ++ x' :: b' ∧ Pairs R a a' ∧ R x x' ∧ Pairs R b b' := by
  induction a with
  | nil => intro as h; cases h with | cons hr hp => exact ⟨[], _, _, rfl, .nil, hr, hp⟩
  | cons y a ih =>
    intro as h
    cases h with
    | cons hr hp =>
      obtain ⟨a', x', b', rfl, h1, h2, h3⟩ := ih hp
      exact ⟨_ :: a', x', b', rfl, .cons hr h1, h2, h3⟩

theorem Pairs.get {α β : Type} {R : α → β → Prop} {as : List α} {bs : List β} (h : Pairs R as bs) :
    ∀ (i : Nat) a b, as[i]? = some a → bs[i]? = some b → R a b := by
  induction h with
  | nil => intro i a b h; simp at h
  | cons hr _ ih =>
    intro i a b h1 h2
    cases i with
    | zero => simp at h1 h2; subst h1; subst h2; exact hr
    | succ i => simp at h1 h2; exact ih i a b h1 h2

theorem shows_int {t : IntTy} {n : IntOf t} {h : Head} (a : Shows (.int t n) h) :
    (isSigned t = true ∧ width t ≤ 64 ∧ ∃ m : IntOf .i64, m.1 = n.1 ∧ h = .integer m) ∨
    (isSigned t = false ∧ width t ≤ 64 ∧ ∃ m : IntOf .u64, m.1 = n.1 ∧ h = .uInteger m) ∨
    (isSigned t = true ∧ 64 < width t ∧ ∃ m : IntOf .i128, m.1 = n.1 ∧ h = .longInteger m) ∨
    (isSigned t = false ∧ 64 < width t ∧ ∃ m : IntOf .u128, m.1 = n.1 ∧ h = .uLongInteger m) := by
  cases a with
  | signed h1 h2 h3 => exact Or.inl ⟨h1, h2, _, h3, rfl⟩
  | unsigned h1 h2 h3 => exact Or.inr (Or.inl ⟨h1, h2, _, h3, rfl⟩)
  | i128 => exact Or.inr (Or.inr (Or.inl ⟨rfl, by decide, _, rfl, rfl⟩))
  | u128 => exact Or.inr (Or.inr (Or.inr ⟨rfl, by decide, _, rfl, rfl⟩))

theorem shows_unique {d : Doc} {h h' : Head} (a : Shows d h) (b : Shows d h') : h = h' := by
  cases d with
  | int t n =>
    rcases shows_int a with ⟨a1, a2, m, a3, rfl⟩ | ⟨a1, a2, m, a3, rfl⟩ | ⟨a1, a2, m, a3, rfl⟩ | ⟨a1, a2, m, a3, rfl⟩ <;>
      rcases shows_int b with ⟨b1, b2, m', b3, rfl⟩ | ⟨b1, b2, m', b3, rfl⟩ | ⟨b1, b2, m', b3, rfl⟩ | ⟨b1, b2, m', b3, rfl⟩
    all_goals first
      | rw [Subtype.ext (a3.trans b3.symm)]
      | (exfalso; omega)
      | (rw [a1] at b1; cases b1; done)
  | f32 x => cases a with | f32 e => cases b with | f32 e' => rw [sameFloat_unique e e']
  | _ => cases a <;> cases b <;> rfl

theorem widen_fst {s t : IntTy} (h) (n : IntOf s) : (widen t h n).1 = n.1 := rfl

theorem shows_signed {t : IntTy} {n : IntOf t} {m : IntOf .i64} {v : Value} (h1 : isSigned t = true) (h2 : width t ≤ 64)
    (h3 : m.1 = n.1) (h4 : (Except.ok (Value.integer m) : Except String Value) = .ok v) : Shows (.int t n) (head v) := by
  rw [← Except.ok.inj h4]; exact .signed h1 h2 h3

theorem shows_unsigned {t : IntTy} {n : IntOf t} {m : IntOf .u64} {v : Value} (h1 : isSigned t = false) (h2 : width t ≤ 64)
    (h3 : m.1 = n.1) (h4 : (Except.ok (Value.uInteger m) : Except String Value) = .ok v) : Shows (.int t n) (head v) := by
  rw [← Except.ok.inj h4]; exact .unsigned h1 h2 h3

theorem shows_visit_i8 {n : IntOf .i8} {v : Value} (hv : visit (.int .i8 n) = .ok v) : Shows (.int .i8 n) (head v) := by
  rw [visit] at hv; exact shows_signed rfl (by simp [width]) (widen_fst _ n) hv

theorem shows_visit_i16 {n : IntOf .i16} {v : Value} (hv : visit (.int .i16 n) = .ok v) : Shows (.int .i16 n) (head v) := by
  rw [visit] at hv; exact shows_signed rfl (by simp [width]) (widen_fst _ n) hv

theorem shows_visit_i32 {n : IntOf .i32} {v : Value} (hv : visit (.int .i32 n) = .ok v) : Shows (.int .i32 n) (head v) := by
  rw [visit] at hv; exact shows_signed rfl (by simp [width]) (widen_fst _ n) hv

theorem shows_visit_i64 {n : IntOf .i64} {v : Value} (hv : visit (.int .i64 n) = .ok v) : Shows (.int .i64 n) (head v) := by
  rw [visit] at hv; exact shows_signed rfl (by simp [width]) rfl hv

theorem shows_visit_u8 {n : IntOf .u8} {v : Value} (hv : visit (.int .u8 n) = .ok v) : Shows (.int .u8 n) (head v) := by
  rw [visit] at hv; exact shows_unsigned rfl (by simp [width]) (widen_fst _ n) hv

theorem shows_visit_u16 {n : IntOf .u16} {v : Value} (hv : visit (.int .u16 n) = .ok v) : Shows (.int .u16 n) (head v) := by
  rw [visit] at hv; exact shows_unsigned rfl (by simp [width]) (widen_fst _ n) hv

theorem shows_visit_u32 {n : IntOf .u32} {v : Value} (hv : visit (.int .u32 n) = .ok v) : Shows (.int .u32 n) (head v) := by
  rw [visit] at hv; exact shows_unsigned rfl (by simp [width]) (widen_fst _ n) hv

theorem shows_visit_u64 {n : IntOf .u64} {v : Value} (hv : visit (.int .u64 n) = .ok v) : Shows (.int .u64 n) (head v) := by
  rw [visit] at hv; exact shows_unsigned rfl (by simp [width]) rfl hv

theorem shows_visit_i128 {n : IntOf .i128} {v : Value} (hv : visit (.int .i128 n) = .ok v) : Shows (.int .i128 n) (head v) := by
  rw [visit] at hv; rw [← Except.ok.inj hv]; exact .i128 n

theorem shows_visit_u128 {n : IntOf .u128} {v : Value} (hv : visit (.int .u128 n) = .ok v) : Shows (.int .u128 n) (head v) := by
  rw [visit] at hv; rw [← Except.ok.inj hv]; exact .u128 n

theorem shows_visit {d : Doc} (hd : ∀ x, d ≠ .some x) {v : Value} (hv : visit d = .ok v) : Shows d (head v) := by
  cases d with
  | int t n =>
    cases t with
    | i8 => exact shows_visit_i8 hv
    | i16 => exact shows_visit_i16 hv
    | i32 => exact shows_visit_i32 hv
    | i64 => exact shows_visit_i64 hv
    | i128 => exact shows_visit_i128 hv
    | u8 => exact shows_visit_u8 hv
    | u16 => exact shows_visit_u16 hv
    | u32 => exact shows_visit_u32 hv
    | u64 => exact shows_visit_u64 hv
    | u128 => exact shows_visit_u128 hv
  | some d => exact absurd rfl (hd d)
  | seq ds =>
    rw [visit] at hv
    obtain ⟨xs, rfl, hp⟩ := (visitSeq_ok _ _ _).1 hv
    have := hp.length
    simp only [List.nil_append, head, ← this]
    exact .seq ds
  | map es =>
    rw [visit] at hv
    obtain ⟨xs, rfl, hp⟩ := (visitMap_ok _ _ _).1 hv
    exact .map es
  | f32 x => rw [visit] at hv; cases hv; exact .f32 (widen_f32 x)
  | f64 x => rw [visit] at hv; cases hv; exact .f64 x
  | bool b => rw [visit] at hv; cases hv; exact .bool b
  | char c => rw [visit] at hv; cases hv; exact .char c
  | str s => rw [visit] at hv; cases hv; exact .str s
  | none => rw [visit] at hv; cases hv; exact .none
  | unit => rw [visit] at hv; cases hv; exact .unit
  | bytes bs => rw [visit] at hv; cases hv
  | newtypeStruct d => rw [visit] at hv; cases hv
  | enum => rw [visit] at hv; cases hv

theorem view_of_at {d x : Doc} {p : Path} (ha : At d p x) : ∀ {v : Value} {h : Head}, visit d = .ok v → Shows x h →
    view v p = some h := by
  induction ha with
  | here d =>
    intro v h hv hs
    have hd : ∀ x, d ≠ .some x := by rintro x rfl; cases hs
    rw [view_nil, shows_unique (shows_visit hd hv) hs]
  | some _ ih => intro v h hv hs; rw [visit] at hv; exact ih hv hs
  | @idx ds i d p x hd _ ih =>
    intro v h hv hs
    rw [visit] at hv
    obtain ⟨xs, rfl, hp⟩ := (visitSeq_ok _ _ _).1 hv
    have hi : i < xs.length := by rw [← hp.length]; exact (List.getElem?_eq_some_iff.1 hd).1
    have hx := hp.get i d xs[i] hd (List.getElem?_eq_getElem hi)
    rw [List.nil_append, view_cons]
    simp only [child, List.getElem?_eq_getElem hi, Option.bind_some]
    exact ih hx hs
  | @key before k' d after k p x hk hn _ ih =>
    intro v h hv hs
    rw [visit] at hv
    obtain ⟨kvs, rfl, hp⟩ := (visitMap_ok _ _ _).1 hv
    obtain ⟨a', x', b', rfl, -, h2, h3⟩ := hp.split_left
    obtain ⟨k2, x2⟩ := x'
    obtain ⟨e1, e2⟩ := h2
    have hk2 := keyText_unique hk (visitKey_iff.1 e1)
    simp only at hk2 e2
    subst hk2
    rw [view_key_map]
    have : hmGet ((a' ++ (k, x2) :: b').foldl (fun m kv => hmInsert m kv.1 kv.2) []) k = some x2 := by
      rw [lastWins]
      refine Or.inl ⟨a', b', rfl, ?_⟩
      intro hm
      obtain ⟨e, he, rfl⟩ := List.mem_map.1 hm
      obtain ⟨e0, h4, h5, -⟩ := h3.right e he
      exact hn e0 h4 (visitKey_iff.1 h5)
    rw [this, Option.bind_some]
    exact ih e2 hs

theorem at_of_view (d : Doc) : ∀ (v : Value) (p : Path) (h : Head), visit d = .ok v → view v p = some h →
    ∃ x, At d p x ∧ Shows x h := by
  have leaf : ∀ (d : Doc) (v : Value) (p : Path) (h : Head), (∀ x, d ≠ .some x) → (∀ s, child v s = none) →
      visit d = .ok v → view v p = some h → ∃ x, At d p x ∧ Shows x h := by
    intro d v p h hd hc hv hh
    cases p with
    | nil => rw [view_nil] at hh; cases hh; exact ⟨d, .here d, shows_visit hd hv⟩
    | cons s p => rw [view_cons, hc s] at hh; cases hh
  induction d using Doc.ind with
  | some d ih =>
    intro v p h hv hh
    rw [visit] at hv
    obtain ⟨x, h1, h2⟩ := ih v p h hv hh
    exact ⟨x, .some h1, h2⟩
  | seq ds ih =>
    intro v p h hv hh
    cases p with
    | nil => rw [view_nil] at hh; cases hh; exact ⟨_, .here _, shows_visit (by simp) hv⟩
    | cons s p =>
      rw [visit] at hv
      obtain ⟨xs, rfl, hp⟩ := (visitSeq_ok _ _ _).1 hv
      rw [List.nil_append, view_cons] at hh
      cases s with
      | key k => simp [child] at hh
      | idx i =>
        cases hx : xs[i]? with
        | none => simp [child, hx] at hh
        | some x =>
          simp only [child, hx, Option.bind_some] at hh
          have hi : i < ds.length := by rw [hp.length]; exact (List.getElem?_eq_some_iff.1 hx).1
          have hd := hp.get i ds[i] x (List.getElem?_eq_getElem hi) hx
          obtain ⟨y, h1, h2⟩ := ih ds[i] (List.getElem_mem hi) x p h hd hh
          exact ⟨y, .idx (List.getElem?_eq_getElem hi) h1, h2⟩
  | map es ih =>
    intro v p h hv hh
    cases p with
    | nil => rw [view_nil] at hh; cases hh; exact ⟨_, .here _, shows_visit (by simp) hv⟩
    | cons s p =>
      rw [visit] at hv
      obtain ⟨kvs, rfl, hp⟩ := (visitMap_ok _ _ _).1 hv
      cases s with
      | idx i => rw [view_idx_map] at hh; cases hh
      | key k =>
        rw [view_key_map] at hh
        cases hx : hmGet (kvs.foldl (fun m kv => hmInsert m kv.1 kv.2) []) k with
        | none => rw [hx] at hh; cases hh
        | some x =>
          rw [hx, Option.bind_some] at hh
          rcases (lastWins _ _ _ _).1 hx with ⟨a, b, rfl, hb⟩ | ⟨-, h⟩
          · obtain ⟨a', e, b', rfl, -, h2, h3⟩ := hp.split_right
            obtain ⟨k', d⟩ := e
            obtain ⟨y, h4, h5⟩ := (ih (k', d) (by simp)).2 x p h h2.2 hh
            refine ⟨y, .key (visitKey_iff.1 h2.1) ?_ h4, h5⟩
            intro e he hk
            obtain ⟨kv, hkv, h6, -⟩ := h3.left e he
            rw [visitKey_iff.2 hk] at h6
            cases h6
            exact hb (List.mem_map.2 ⟨kv, hkv, rfl⟩)
          · cases h
  | bytes bs => intro v p h hv; rw [visit] at hv; cases hv
  | newtypeStruct d => intro v p h hv; rw [visit] at hv; cases hv
  | enum => intro v p h hv; rw [visit] at hv; cases hv
  | int t n =>
    intro v p h hv hh
    exact leaf _ v p h (by simp) (by cases t <;> (rw [visit] at hv; cases hv; rintro (_ | _) <;> rfl)) hv hh
  | _ =>
    intro v p h hv hh
    exact leaf _ v p h (by simp) (by rw [visit] at hv; cases hv; rintro (_ | _) <;> rfl) hv hh

end Verif
