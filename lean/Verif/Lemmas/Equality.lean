import Verif.Lemmas.Merge2
import Verif.Lemmas.ValueInd
import Verif.Lemmas.FloatExact
import Verif.Spec.Equality
/-! Lemmas about `==` on values. -/
namespace Verif
open Spec

theorem agreeAt_nil {R : F64 → F64 → Prop} {a b : Value} : AgreeAt R a b [] ↔ HeadRel R (head a) (head b) := Iff.rfl

theorem agree_array {R : F64 → F64 → Prop} {xs ys : List Value} :
    (∀ p, AgreeAt R (.array xs) (.array ys) p) ↔
      xs.length = ys.length ∧ ∀ (i : Nat) x y, xs[i]? = some x → ys[i]? = some y → ∀ p, AgreeAt R x y p := by
  constructor
  · intro h
    refine ⟨?_, ?_⟩
    · have := h []
      simpa [AgreeAt, view, head, HeadRel] using this
    · intro i x y hx hy p
      have := h (.idx i :: p)
      simpa [AgreeAt, view, child, hx, hy] using this
  · rintro ⟨hl, h⟩ p
    match p with
    | [] => simp [AgreeAt, view, head, HeadRel, hl]
    | .key k :: p => simp [AgreeAt, view, child]
    | .idx i :: p =>
      by_cases hi : i < xs.length
      · have hj : i < ys.length := hl ▸ hi
        have := h i xs[i] ys[i] (by simp [hi]) (by simp [hj]) p
        simpa [AgreeAt, view, child, hi, hj] using this
      · have hj : ¬ i < ys.length := hl ▸ hi
        simp [AgreeAt, view, child, hi, hj]

theorem agree_map {R : F64 → F64 → Prop} {m n : Entries} :
    (∀ p, AgreeAt R (.map m) (.map n) p) ↔
      ∀ k, (hmGet m k = none ↔ hmGet n k = none) ∧
        ∀ x y, hmGet m k = some x → hmGet n k = some y → ∀ p, AgreeAt R x y p := by
  constructor
  · intro h k
    refine ⟨?_, ?_⟩
    · have := h [.key k]
      simp only [AgreeAt, view_key_map] at this
      cases h1 : hmGet m k <;> cases h2 : hmGet n k <;> simp [h1, h2, view] at this ⊢
    · intro x y hx hy p
      have := h (.key k :: p)
      simpa [AgreeAt, view_key_map, hx, hy] using this
  · intro h p
    match p with
    | [] => simp [AgreeAt, view, head, HeadRel]
    | .idx i :: p => simp [AgreeAt, view, child]
    | .key k :: p =>
      obtain ⟨h1, h2⟩ := h k
      simp only [AgreeAt, view_key_map]
      cases hm : hmGet m k with
      | none => rw [h1.1 hm]; trivial
      | some x =>
        cases hn : hmGet n k with
        | none => rw [h1.2 hn] at hm; cases hm
        | some y => exact h2 x y hm hn p

/-- Scalars and mismatched kinds: agreement everywhere is agreement at the root. -/
theorem agree_leaf {R : F64 → F64 → Prop} {a b : Value} (ha : ∀ s, child a s = none) (hb : ∀ s, child b s = none) :
    (∀ p, AgreeAt R a b p) ↔ HeadRel R (head a) (head b) := by
  constructor
  · intro h; exact h []
  · intro h p
    match p with
    | [] => exact h
    | s :: p => simp [AgreeAt, view, ha, hb]

theorem agree_mismatch {R : F64 → F64 → Prop} {a b : Value} (h : ¬ HeadRel R (head a) (head b)) :
    ¬ ∀ p, AgreeAt R a b p := fun h' => h (h' [])

theorem eqMapBy_iff (feq : F64 → F64 → Bool) (m n : Entries) :
    eqMapBy feq m n = true ↔ ∀ k v, (k, v) ∈ m → ∃ w, hmGet n k = some w ∧ Value.eqBy feq v w = true := by
  induction m with
  | nil => simp [eqMapBy]
  | cons e r ih =>
    obtain ⟨k, v⟩ := e
    rw [eqMapBy, Bool.and_eq_true, ih, eqEntryBy]
    constructor
    · rintro ⟨h1, h2⟩ k' v' h
      rcases List.mem_cons.1 h with h | h
      · cases h
        cases hg : hmGet n k with
        | none => simp [hg] at h1
        | some w => exact ⟨w, rfl, by simpa [hg] using h1⟩
      · exact h2 _ _ h
    · intro h
      refine ⟨?_, fun k' v' h' => h k' v' (List.mem_cons_of_mem _ h')⟩
      obtain ⟨w, h1, h2⟩ := h k v (List.mem_cons_self)
      simp [h1, h2]

theorem eqListBy_iff (feq : F64 → F64 → Bool) (xs ys : List Value) :
    eqListBy feq xs ys = true ↔ xs.length = ys.length ∧
      ∀ (i : Nat) x y, xs[i]? = some x → ys[i]? = some y → Value.eqBy feq x y = true := by
  induction xs generalizing ys with
  | nil => cases ys <;> simp [eqListBy]
  | cons x xs ih =>
    cases ys with
    | nil => simp [eqListBy]
    | cons y ys =>
      rw [eqListBy, Bool.and_eq_true, ih]
      constructor
      · rintro ⟨h1, h2, h3⟩
        refine ⟨by simp [h2], fun i a b ha hb => ?_⟩
        cases i with
        | zero => simp at ha hb; subst ha hb; exact h1
        | succ i => exact h3 i a b (by simpa using ha) (by simpa using hb)
      · rintro ⟨h1, h2⟩
        exact ⟨h2 0 x y rfl rfl, by simpa using h1, fun i a b ha hb => h2 (i+1) a b (by simpa using ha) (by simpa using hb)⟩

theorem keys_eq_of_subset {m n : Entries} (hm : (m.map Prod.fst).Nodup)
    (hl : n.length ≤ m.length) (hs : ∀ k, k ∈ m.map Prod.fst → k ∈ n.map Prod.fst) :
    ∀ k, k ∈ m.map Prod.fst ↔ k ∈ n.map Prod.fst := by
  have hp := (List.subperm_of_subset hm hs).perm_of_length_le (by simpa using hl)
  exact fun k => hp.mem_iff

theorem eqBy_iff {feq : F64 → F64 → Bool} {R : F64 → F64 → Prop} (hR : ∀ x y, feq x y = true ↔ R x y)
    (a : Value) : UniqueKeys a → ∀ b, UniqueKeys b → (Value.eqBy feq a b = true ↔ ∀ p, AgreeAt R a b p) := by
  induction a using Value.ind with
  | none =>
    intro ha b hb
    cases b <;> first
      | (refine iff_of_false ?_ (agree_mismatch ?_) <;> simp [Value.eqBy, head, HeadRel]; done)
      | (rw [agree_leaf (by rintro (_|_) <;> rfl) (by rintro (_|_) <;> rfl)]; simp [Value.eqBy, head, HeadRel, hR]; done)
  | boolean x =>
    intro ha b hb
    cases b <;> first
      | (refine iff_of_false ?_ (agree_mismatch ?_) <;> simp [Value.eqBy, head, HeadRel]; done)
      | (rw [agree_leaf (by rintro (_|_) <;> rfl) (by rintro (_|_) <;> rfl)]; simp [Value.eqBy, head, HeadRel, hR]; done)
  | integer x =>
    intro ha b hb
    cases b <;> first
      | (refine iff_of_false ?_ (agree_mismatch ?_) <;> simp [Value.eqBy, head, HeadRel]; done)
      | (rw [agree_leaf (by rintro (_|_) <;> rfl) (by rintro (_|_) <;> rfl)]; simp [Value.eqBy, head, HeadRel, hR]; done)
  | longInteger x =>
    intro ha b hb
    cases b <;> first
      | (refine iff_of_false ?_ (agree_mismatch ?_) <;> simp [Value.eqBy, head, HeadRel]; done)
      | (rw [agree_leaf (by rintro (_|_) <;> rfl) (by rintro (_|_) <;> rfl)]; simp [Value.eqBy, head, HeadRel, hR]; done)
  | uInteger x =>
    intro ha b hb
    cases b <;> first
      | (refine iff_of_false ?_ (agree_mismatch ?_) <;> simp [Value.eqBy, head, HeadRel]; done)
      | (rw [agree_leaf (by rintro (_|_) <;> rfl) (by rintro (_|_) <;> rfl)]; simp [Value.eqBy, head, HeadRel, hR]; done)
  | uLongInteger x =>
    intro ha b hb
    cases b <;> first
      | (refine iff_of_false ?_ (agree_mismatch ?_) <;> simp [Value.eqBy, head, HeadRel]; done)
      | (rw [agree_leaf (by rintro (_|_) <;> rfl) (by rintro (_|_) <;> rfl)]; simp [Value.eqBy, head, HeadRel, hR]; done)
  | float x =>
    intro ha b hb
    cases b <;> first
      | (refine iff_of_false ?_ (agree_mismatch ?_) <;> simp [Value.eqBy, head, HeadRel]; done)
      | (rw [agree_leaf (by rintro (_|_) <;> rfl) (by rintro (_|_) <;> rfl)]; simp [Value.eqBy, head, HeadRel, hR]; done)
  | string x =>
    intro ha b hb
    cases b <;> first
      | (refine iff_of_false ?_ (agree_mismatch ?_) <;> simp [Value.eqBy, head, HeadRel]; done)
      | (rw [agree_leaf (by rintro (_|_) <;> rfl) (by rintro (_|_) <;> rfl)]; simp [Value.eqBy, head, HeadRel, hR]; done)
  | array xs ih =>
    intro ha b hb
    cases b <;> first
      | (refine iff_of_false ?_ (agree_mismatch ?_) <;> simp [Value.eqBy, head, HeadRel]; done)
      | skip
    rename_i ys
    rw [Value.eqBy]
    rw [eqListBy_iff, agree_array]
    refine and_congr_right fun _ => forall_congr' fun i => forall_congr' fun x => forall_congr' fun y => ?_
    refine imp_congr_right fun hx => imp_congr_right fun hy => ?_
    exact ih x (List.mem_of_getElem? hx) (uniqueKeys_array.1 ha x (List.mem_of_getElem? hx)) y (uniqueKeys_array.1 hb y (List.mem_of_getElem? hy))
  | map m ih =>
    intro ha b hb
    cases b <;> first
      | (refine iff_of_false ?_ (agree_mismatch ?_) <;> simp [Value.eqBy, head, HeadRel]; done)
      | skip
    rename_i n
    rw [Value.eqBy]
    have hma := uniqueKeys_map.1 ha
    have hnb := uniqueKeys_map.1 hb
    simp only [Bool.and_eq_true, beq_iff_eq]
    rw [eqMapBy_iff, agree_map]
    constructor
    · rintro ⟨hl, h⟩ k
      have hsub : ∀ k, k ∈ m.map Prod.fst → k ∈ n.map Prod.fst := by
        intro k hk
        rw [List.mem_map] at hk
        obtain ⟨⟨k', v⟩, hmem, rfl⟩ := hk
        obtain ⟨w, hw, -⟩ := h k' v hmem
        exact hmGet_isSome.1 (by rw [hw]; rfl)
      have heq := keys_eq_of_subset hma.1 (by omega) hsub
      refine ⟨by rw [hmGet_eq_none, hmGet_eq_none, heq k], fun x y hx hy => ?_⟩
      obtain ⟨w, hw, he⟩ := h k x (hmGet_mem hx)
      rw [hy] at hw; cases hw
      exact (ih (k, x) (hmGet_mem hx) (hma.2 _ (hmGet_mem hx)) y (uniqueKeys_get hb hy)).1 he
    · intro h
      have hk : ∀ k, k ∈ m.map Prod.fst ↔ k ∈ n.map Prod.fst := by
        intro k
        have := (h k).1
        rw [hmGet_eq_none, hmGet_eq_none] at this
        exact not_iff_not.1 this
      refine ⟨?_, ?_⟩
      · have h1 := (List.subperm_of_subset hma.1 (fun k => (hk k).1)).length_le
        have h2 := (List.subperm_of_subset hnb.1 (fun k => (hk k).2)).length_le
        simp at h1 h2; omega
      · intro k v hmem
        have hg := hmGet_of_mem hma.1 hmem
        cases hn : hmGet n k with
        | none => have := (h k).1.2 hn; rw [hg] at this; cases this
        | some w => exact ⟨w, rfl, (ih (k, v) hmem (hma.2 _ hmem) w (uniqueKeys_get hb hn)).2 ((h k).2 v w hg hn)⟩

theorem ratOf_zero_iff {s : Bool} {m : Nat} {e : Int} : ratOf (.fin s m e) = some 0 ↔ m = 0 := by
  simp only [ratOf, Option.some.injEq]
  constructor
  · intro h
    have h2 : (2:ℚ) ^ e ≠ 0 := zpow_ne_zero _ (by norm_num)
    have h3 : (if s then (-1:ℚ) else 1) ≠ 0 := by cases s <;> norm_num
    have := (mul_eq_zero.1 h).resolve_right h2
    have := (mul_eq_zero.1 this).resolve_left h3
    exact_mod_cast this
  · rintro rfl; simp

theorem ieeeEq_iff (x y : F64) : x.1.ieeeEq y.1 = true ↔ NumEq x y := by
  obtain ⟨x, hx⟩ := x; obtain ⟨y, hy⟩ := y
  cases x with
  | nan => simp [FpRaw.ieeeEq, NumEq, ratOf]
  | inf a =>
    cases y with
    | inf b => cases a <;> cases b <;> simp [FpRaw.ieeeEq, NumEq, ratOf]
    | _ => simp [FpRaw.ieeeEq, NumEq, ratOf]
  | fin a m e =>
    cases y with
    | nan => simp [FpRaw.ieeeEq, NumEq, ratOf]
    | inf b => simp [FpRaw.ieeeEq, NumEq, ratOf]
    | fin b n k =>
      have hr : NumEq ⟨.fin a m e, hx⟩ ⟨.fin b n k, hy⟩ ↔ ratOf (.fin a m e) = ratOf (.fin b n k) := by
        simp [NumEq, ratOf, eq_comm]
      rw [hr]
      simp only [FpRaw.ieeeEq, Bool.or_eq_true, Bool.and_eq_true, beq_iff_eq]
      constructor
      · rintro (⟨rfl, rfl⟩ | ⟨⟨rfl, rfl⟩, rfl⟩)
        · simp [ratOf]
        · rfl
      · intro h
        by_cases hm : m = 0
        · left
          have h0 := (ratOf_zero_iff (s := a) (e := e)).2 hm
          rw [h] at h0
          exact ⟨hm, ratOf_zero_iff.1 h0⟩
        · right
          have hn : n ≠ 0 := fun h0 => hm (ratOf_zero_iff.1 (h.trans (ratOf_zero_iff.2 h0)))
          have hmp : (0:ℚ) < m := by exact_mod_cast Nat.pos_of_ne_zero hm
          have hnp : (0:ℚ) < n := by exact_mod_cast Nat.pos_of_ne_zero hn
          have h1 : (0:ℚ) < m * (2:ℚ)^e := by positivity
          have h2 : (0:ℚ) < n * (2:ℚ)^k := by positivity
          simp only [ratOf, Option.some.injEq, mul_assoc] at h
          have hab : a = b := by
            cases a <;> cases b <;> simp at h ⊢ <;> nlinarith
          subst hab
          have hv : (m:ℚ) * (2:ℚ)^e = n * (2:ℚ)^k := by
            cases a <;> simpa using h
          obtain ⟨h3, h4⟩ := canon_inj fmt64 fmt64_ok hx hy hv
          exact ⟨⟨rfl, h3⟩, h4⟩

theorem rustEq_iff {a b : Value} (ha : UniqueKeys a) (hb : UniqueKeys b) :
    a.rustEq b = true ↔ EqualAsSeen a b := eqBy_iff ieeeEq_iff a ha b hb

theorem same_iff_agree {a b : Value} : Same a b ↔ ∀ p, AgreeAt (fun x y => x = y) a b p := by
  refine forall_congr' fun p => ?_
  unfold AgreeAt
  cases view a p with
  | none => cases view b p <;> simp
  | some h =>
    cases view b p with
    | none => simp
    | some h' => cases h <;> cases h' <;> simp [HeadRel]

end Verif
