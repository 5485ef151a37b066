import Verif.Model.Doc
import Verif.Lemmas.Merge2
/-! # Lemmas about the visitor driven by a foreign format -/
namespace Verif
open Spec

theorem Doc.ind {P : Doc → Prop}
    (bool : ∀ b, P (.bool b)) (int : ∀ t n, P (.int t n)) (f32 : ∀ x, P (.f32 x)) (f64 : ∀ x, P (.f64 x))
    (char : ∀ c, P (.char c)) (str : ∀ s, P (.str s)) (bytes : ∀ bs, P (.bytes bs)) (none : P .none)
    (some : ∀ d, P d → P (.some d)) (unit : P .unit) (newtypeStruct : ∀ d, P d → P (.newtypeStruct d))
    (seq : ∀ ds, (∀ d ∈ ds, P d) → P (.seq ds))
    (map : ∀ es, (∀ e ∈ es, P (Prod.fst e) ∧ P e.2) → P (.map es)) (enum : P .enum) : ∀ d, P d :=
  Doc.rec (motive_1 := P) (motive_2 := fun ds => ∀ d ∈ ds, P d) (motive_3 := fun es => ∀ e ∈ es, P (Prod.fst e) ∧ P e.2)
    (motive_4 := fun e => P e.1 ∧ P e.2)
    bool int f32 f64 char str bytes none some unit newtypeStruct seq map enum
    (by simp) (by intro x xs hx hxs y hy; rcases List.mem_cons.1 hy with rfl | hy; exacts [hx, hxs y hy])
    (by simp) (by intro x xs hx hxs y hy; rcases List.mem_cons.1 hy with rfl | hy; exacts [hx, hxs y hy])
    (fun _ _ h1 h2 => ⟨h1, h2⟩)

theorem ofUtf8_utf8 (s : String) : ofUtf8 (utf8 s) = some s := by
  unfold ofUtf8 utf8 String.fromUTF8?
  exact dif_pos s.isValidUTF8

theorem utf8_of_ofUtf8 {bs : List UInt8} {s : String} (h : ofUtf8 bs = some s) : bs = utf8 s := by
  unfold ofUtf8 String.fromUTF8? at h
  split at h
  · cases h; rfl
  · cases h

theorem utf8_inj {s t : String} (h : utf8 s = utf8 t) : s = t := by
  have := ofUtf8_utf8 s
  rw [h, ofUtf8_utf8] at this
  exact (Option.some.inj this).symm

theorem except_bind_ok {ε α β : Type} {x : Except ε α} {f : α → Except ε β} {b : β} :
    (x >>= f) = .ok b ↔ ∃ a, x = .ok a ∧ f a = .ok b := by
  cases x with
  | error e => constructor
               · intro h; cases h
               · rintro ⟨a, h, _⟩; cases h
  | ok a => constructor
            · intro h; exact ⟨a, rfl, h⟩
            · rintro ⟨a', h, h'⟩; cases h; exact h'

/-- Element by element. -/
inductive Pairs {α β : Type} (R : α → β → Prop) : List α → List β → Prop
  | nil : Pairs R [] []
  | cons {a b as bs} : R a b → Pairs R as bs → Pairs R (a :: as) (b :: bs)

theorem visitSeq_ok (ds : List Doc) : ∀ (acc : List Value) (v : Value),
    visitSeq acc ds = .ok v ↔ ∃ xs, v = .array (acc ++ xs) ∧ Pairs (fun d x => visit d = .ok x) ds xs := by
  induction ds with
  | nil =>
    intro acc v
    rw [visitSeq]
    constructor
    · intro h; cases h; exact ⟨[], by simp, .nil⟩
    · rintro ⟨xs, rfl, h⟩; cases h; simp
  | cons d ds ih =>
    intro acc v
    rw [visitSeq, except_bind_ok]
    constructor
    · rintro ⟨x, hx, h⟩
      obtain ⟨xs, rfl, hp⟩ := (ih _ _).1 h
      exact ⟨x :: xs, by simp, .cons hx hp⟩
    · rintro ⟨xs, rfl, h⟩
      cases h with
      | cons hx hp => exact ⟨_, hx, (ih _ _).2 ⟨_, by simp, hp⟩⟩

theorem visitEntry_ok (e : Doc × Doc) (k : String) (x : Value) :
    visitEntry e = .ok (k, x) ↔ visitKey e.1 = .ok k ∧ visit e.2 = .ok x := by
  obtain ⟨a, b⟩ := e
  rw [visitEntry, except_bind_ok]
  constructor
  · rintro ⟨k', h1, h2⟩
    obtain ⟨x', h3, h4⟩ := except_bind_ok.1 h2
    cases h4; exact ⟨h1, h3⟩
  · rintro ⟨h1, h2⟩
    exact ⟨k, h1, except_bind_ok.2 ⟨x, h2, rfl⟩⟩

theorem visitMap_ok (es : List (Doc × Doc)) : ∀ (acc : Entries) (v : Value),
    visitMap acc es = .ok v ↔ ∃ kvs : Entries, v = .map (kvs.foldl (fun m kv => hmInsert m kv.1 kv.2) acc) ∧
      Pairs (fun e kv => visitKey e.1 = .ok kv.1 ∧ visit e.2 = .ok kv.2) es kvs := by
  induction es with
  | nil =>
    intro acc v
    rw [visitMap]
    constructor
    · intro h; cases h; exact ⟨[], rfl, .nil⟩
    · rintro ⟨xs, rfl, h⟩; cases h; rfl
  | cons e es ih =>
    intro acc v
    rw [visitMap, except_bind_ok]
    constructor
    · rintro ⟨⟨k, x⟩, hx, h⟩
      obtain ⟨xs, rfl, hp⟩ := (ih _ _).1 h
      exact ⟨(k, x) :: xs, rfl, .cons ((visitEntry_ok e k x).1 hx) hp⟩
    · rintro ⟨xs, rfl, h⟩
      cases h with
      | @cons _ b _ bs hx hp => exact ⟨b, (visitEntry_ok e b.1 b.2).2 hx, (ih _ _).2 ⟨_, rfl, hp⟩⟩

theorem Pairs.right {α β : Type} {R : α → β → Prop} {as : List α} {bs : List β} (h : Pairs R as bs) :
    ∀ b ∈ bs, ∃ a ∈ as, R a b := by
  induction h with
  | nil => simp
  | cons hr _ ih =>
    intro b hb
    rcases List.mem_cons.1 hb with rfl | hb
    · exact ⟨_, by simp, hr⟩
    · obtain ⟨a, ha, h⟩ := ih b hb; exact ⟨a, by simp [ha], h⟩

theorem Pairs.left {α β : Type} {R : α → β → Prop} {as : List α} {bs : List β} (h : Pairs R as bs) :
    ∀ a ∈ as, ∃ b ∈ bs, R a b := by
  induction h with
  | nil => simp
  | cons hr _ ih =>
    intro b hb
    rcases List.mem_cons.1 hb with rfl | hb
    · exact ⟨_, by simp, hr⟩
    · obtain ⟨a, ha, h⟩ := ih b hb; exact ⟨a, by simp [ha], h⟩

theorem Pairs.length {α β : Type} {R : α → β → Prop} {as : List α} {bs : List β} (h : Pairs R as bs) :
    as.length = bs.length := by
  induction h with
  | nil => rfl
  | cons _ _ ih => simp [ih]

theorem Pairs.of_forall {α β : Type} {R : α → β → Prop} {as : List α} (h : ∀ a ∈ as, ∃ b, R a b) :
    ∃ bs, Pairs R as bs := by
  induction as with
  | nil => exact ⟨[], .nil⟩
  | cons a as ih =>
    obtain ⟨b, hb⟩ := h a (by simp)
    obtain ⟨bs, hbs⟩ := ih (fun x hx => h x (by simp [hx]))
    exact ⟨b :: bs, .cons hb hbs⟩

theorem uniqueKeys_foldl_insert (kvs : Entries) : ∀ acc : Entries, UniqueKeys (.map acc) → (∀ e ∈ kvs, UniqueKeys e.2) →
    UniqueKeys (.map (kvs.foldl (fun m kv => hmInsert m kv.1 kv.2) acc)) := by
  induction kvs with
  | nil => intro acc h _; exact h
  | cons e kvs ih =>
    intro acc h hv
    rw [List.foldl_cons]
    exact ih _ (uniqueKeys_insert h (hv e (by simp))) (fun x hx => hv x (by simp [hx]))

theorem uniqueKeys_visit (d : Doc) : ∀ v, visit d = .ok v → UniqueKeys v := by
  induction d using Doc.ind with
  | int t n => intro v h; cases t <;> (simp only [visit] at h; cases h; trivial)
  | some d ih => intro v h; rw [visit] at h; exact ih v h
  | seq ds ih =>
    intro v h
    rw [visit, visitSeq_ok] at h
    obtain ⟨xs, rfl, hp⟩ := h
    rw [List.nil_append, uniqueKeys_array]
    intro x hx
    obtain ⟨d, hd, h⟩ := hp.right x hx
    exact ih d hd x h
  | map es ih =>
    intro v h
    rw [visit, visitMap_ok] at h
    obtain ⟨kvs, rfl, hp⟩ := h
    apply uniqueKeys_foldl_insert
    · exact uniqueKeys_map.2 ⟨List.nodup_nil, by simp⟩
    · intro e he
      obtain ⟨d, hd, h⟩ := hp.right e he
      exact (ih d hd).2 _ h.2
  | bytes bs => intro v h; rw [visit] at h; cases h
  | newtypeStruct d => intro v h; rw [visit] at h; cases h
  | enum => intro v h; rw [visit] at h; cases h
  | _ => intro v h; simp only [visit] at h; cases h; trivial

end Verif
