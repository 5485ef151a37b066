import Verif.Spec.Nesting
import Verif.Props.Cost
import Verif.Props.Export
import Verif.Lemmas.DocContent
import Verif.Lemmas.Equality
import Verif.Props.Value
import Verif.Lemmas.Toml
/-!
# Nesting and the stack (C135)
-/
namespace Verif.Props
open Spec

theorem displayF_cases (v : Value) : UniqueKeys v → ∀ n, (DepthBelow v n → v.displayF n = some v.display) ∧ (¬ DepthBelow v n → v.displayF n = none) := by
  induction v using Value.ind with
  | map m ih =>
    intro hu n
    obtain ⟨hn, hus⟩ := uniqueKeys_map.1 hu
    cases n with
    | zero => exact ⟨fun h => absurd h (depthBelow_zero _), fun _ => by simp [Value.displayF]⟩
    | succ n =>
      rw [depthBelow_map hn, Value.displayF, Value.display]
      have key : ∀ first, ((∀ e ∈ m, DepthBelow e.2 n) → displayEntriesF n first m = some (displayEntries first m)) ∧
          (¬ (∀ e ∈ m, DepthBelow e.2 n) → displayEntriesF n first m = none) := by
        clear hn hu
        induction m with
        | nil => intro f; exact ⟨fun _ => by simp [displayEntriesF, displayEntries], fun h => absurd (by simp) h⟩
        | cons e m ihm =>
          intro f
          obtain ⟨g1, g2⟩ := ih e (by simp) (hus e (by simp)) n
          obtain ⟨k1, k2⟩ := ihm (fun e he => ih e (by simp [he])) (fun e he => hus e (by simp [he])) false
          obtain ⟨k, v⟩ := e
          rw [displayEntriesF, displayEntryF, displayEntries, displayEntry]
          constructor
          · intro h
            rw [g1 (h _ (by simp)), k1 fun e he => h e (by simp [he])]
            simp
          · intro h
            by_cases hv : DepthBelow v n
            · rw [g1 hv, k2 fun h' => h fun e he => by rcases List.mem_cons.1 he with rfl | he; exacts [hv, h' e he]]; rfl
            · rw [g2 hv]; rfl
      exact ⟨fun h => by rw [(key true).1 h]; rfl, fun h => by rw [(key true).2 h]; rfl⟩
  | array xs ih =>
    intro hu n
    have hus := uniqueKeys_array.1 hu
    cases n with
    | zero => exact ⟨fun h => absurd h (depthBelow_zero _), fun _ => by simp [Value.displayF]⟩
    | succ n =>
      rw [depthBelow_array, Value.displayF, Value.display]
      have key : ∀ first, ((∀ e ∈ xs, DepthBelow e n) → displayElemsF n first xs = some (displayElems first xs)) ∧
          (¬ (∀ e ∈ xs, DepthBelow e n) → displayElemsF n first xs = none) := by
        clear hu
        induction xs with
        | nil => intro f; exact ⟨fun _ => by simp [displayElemsF, displayElems], fun h => absurd (by simp) h⟩
        | cons v xs ihm =>
          intro f
          obtain ⟨g1, g2⟩ := ih v (by simp) (hus v (by simp)) n
          obtain ⟨k1, k2⟩ := ihm (fun e he => ih e (by simp [he])) (fun e he => hus e (by simp [he])) false
          rw [displayElemsF, displayElems]
          constructor
          · intro h
            rw [g1 (h _ (by simp)), k1 fun e he => h e (by simp [he])]
            simp
          · intro h
            by_cases hv : DepthBelow v n
            · rw [g1 hv, k2 fun h' => h fun e he => by rcases List.mem_cons.1 he with rfl | he; exacts [hv, h' e he]]; rfl
            · rw [g2 hv]; rfl
      exact ⟨fun h => by rw [(key true).1 h]; rfl, fun h => by rw [(key true).2 h]; rfl⟩
  | _ =>
    intro _ n
    cases n with
    | zero => exact ⟨fun h => absurd h (depthBelow_zero _), fun _ => by simp [Value.displayF]⟩
    | succ n => exact ⟨fun _ => by simp [Value.displayF], fun h => absurd (depthBelow_scalar rfl rfl n) h⟩

theorem toDataF_cases (v : Value) : UniqueKeys v → ∀ n, (DepthBelow v n → v.toDataF n = some v.toData) ∧ (¬ DepthBelow v n → v.toDataF n = none) := by
  induction v using Value.ind with
  | map m ih =>
    intro hu n
    obtain ⟨hn, hus⟩ := uniqueKeys_map.1 hu
    cases n with
    | zero => exact ⟨fun h => absurd h (depthBelow_zero _), fun _ => by simp [Value.toDataF]⟩
    | succ n =>
      rw [depthBelow_map hn, Value.toDataF, Value.toData]
      have key : ((∀ e ∈ m, DepthBelow e.2 n) → toDataEntriesF n m = some (toDataEntries m)) ∧
          (¬ (∀ e ∈ m, DepthBelow e.2 n) → toDataEntriesF n m = none) := by
        clear hn hu
        induction m with
        | nil => exact ⟨fun _ => by simp [toDataEntriesF, toDataEntries], fun h => absurd (by simp) h⟩
        | cons e m ihm =>
          obtain ⟨g1, g2⟩ := ih e (by simp) (hus e (by simp)) n
          obtain ⟨k1, k2⟩ := ihm (fun e he => ih e (by simp [he])) (fun e he => hus e (by simp [he]))
          obtain ⟨k, v⟩ := e
          rw [toDataEntriesF, toDataEntryF, toDataEntries, toDataEntry]
          constructor
          · intro h
            rw [g1 (h _ (by simp)), k1 fun e he => h e (by simp [he])]
            simp
          · intro h
            by_cases hv : DepthBelow v n
            · rw [g1 hv, k2 fun h' => h fun e he => by rcases List.mem_cons.1 he with rfl | he; exacts [hv, h' e he]]; rfl
            · rw [g2 hv]; rfl
      exact ⟨fun h => by rw [key.1 h]; rfl, fun h => by rw [key.2 h]; rfl⟩
  | array xs ih =>
    intro hu n
    have hus := uniqueKeys_array.1 hu
    cases n with
    | zero => exact ⟨fun h => absurd h (depthBelow_zero _), fun _ => by simp [Value.toDataF]⟩
    | succ n =>
      rw [depthBelow_array, Value.toDataF, Value.toData]
      have key : ((∀ e ∈ xs, DepthBelow e n) → toDataListF n xs = some (toDataList xs)) ∧
          (¬ (∀ e ∈ xs, DepthBelow e n) → toDataListF n xs = none) := by
        clear hu
        induction xs with
        | nil => exact ⟨fun _ => by simp [toDataListF, toDataList], fun h => absurd (by simp) h⟩
        | cons v xs ihm =>
          obtain ⟨g1, g2⟩ := ih v (by simp) (hus v (by simp)) n
          obtain ⟨k1, k2⟩ := ihm (fun e he => ih e (by simp [he])) (fun e he => hus e (by simp [he]))
          rw [toDataListF, toDataList]
          constructor
          · intro h
            rw [g1 (h _ (by simp)), k1 fun e he => h e (by simp [he])]
            simp
          · intro h
            by_cases hv : DepthBelow v n
            · rw [g1 hv, k2 fun h' => h fun e he => by rcases List.mem_cons.1 he with rfl | he; exacts [hv, h' e he]]; rfl
            · rw [g2 hv]; rfl
      exact ⟨fun h => by rw [key.1 h]; rfl, fun h => by rw [key.2 h]; rfl⟩
  | _ =>
    intro _ n
    cases n with
    | zero => exact ⟨fun h => absurd h (depthBelow_zero _), fun _ => by simp [Value.toDataF]⟩
    | succ n => exact ⟨fun _ => by simp [Value.toDataF], fun h => absurd (depthBelow_scalar rfl rfl n) h⟩

/-- **C135.** On a stack that takes `n` nested calls, a value can be cloned, dropped, shown and serialized exactly if it is nested less than `n` deep, and
the result is then the usual one. -/
theorem C135_exact (v : Value) (hu : UniqueKeys v) (n : Nat) :
    (DepthBelow v n → v.cloneF n = some () ∧ v.dropF n = some () ∧ v.displayF n = some v.display ∧ v.toDataF n = some v.toData) ∧
    (¬ DepthBelow v n → v.cloneF n = none ∧ v.dropF n = none ∧ v.displayF n = none ∧ v.toDataF n = none) := by
  have hc : ¬ DepthBelow v n → v.cloneF n = none := fun h => by
    cases hx : v.cloneF n with
    | none => rfl
    | some u => exact absurd ((cloneF_iff v hu n).1 hx) h
  obtain ⟨d1, d2⟩ := displayF_cases v hu n
  obtain ⟨t1, t2⟩ := toDataF_cases v hu n
  rw [dropF_eq]
  exact ⟨fun h => ⟨(cloneF_iff v hu n).2 h, (cloneF_iff v hu n).2 h, d1 h, t1 h⟩, fun h => ⟨hc h, hc h, d2 h, t2 h⟩⟩


/-! ## Comparing -/

theorem eqF_sound (a : Value) : ∀ (n : Nat) (b : Value) (r : Bool), a.eqF n b = some r → r = a.rustEq b := by
  induction a using Value.ind with
  | map m ih =>
    intro n b r h
    cases n with
    | zero => simp [Value.eqF] at h
    | succ n =>
      have key : ∀ (k : Entries) (r : Bool), eqMapF n m k = some r → r = eqMapBy (fun x y => x.1.ieeeEq y.1) m k := by
        intro k
        clear h
        induction m with
        | nil => intro r h; simpa [eqMapF, eqMapBy] using h.symm
        | cons e m ihm =>
          intro r h
          obtain ⟨key, v⟩ := e
          rw [eqMapF, eqEntryF] at h
          rw [eqMapBy, eqEntryBy]
          cases hg : hmGet k key with
          | none => simp [hg] at h; simpa using h.symm
          | some w =>
            simp only [hg] at h ⊢
            obtain ⟨t, ht, h⟩ := Option.bind_eq_some_iff.1 h
            have ht' := ih (key, v) (by simp) n w t ht
            change t = Value.eqBy _ v w at ht'
            rw [← ht']
            cases t with
            | false => simpa using h.symm
            | true => simpa using ihm (fun e he => ih e (by simp [he])) r h
      cases b with
      | map k =>
        rw [Value.eqF] at h
        show r = (m.length == k.length && eqMapBy _ m k)
        by_cases hl : (m.length == k.length) = true
        · rw [if_pos hl] at h; rw [hl]; simpa using key k r h
        · rw [if_neg hl] at h; simp only [Bool.not_eq_true] at hl; rw [hl]; simpa using h.symm
      | _ => simpa [Value.eqF, Value.rustEq, Value.eqBy] using h.symm
  | array xs ih =>
    intro n b r h
    cases n with
    | zero => simp [Value.eqF] at h
    | succ n =>
      have key : ∀ (ys : List Value) (r : Bool), eqListF n xs ys = some r → r = eqListBy (fun x y => x.1.ieeeEq y.1) xs ys := by
        clear h
        induction xs with
        | nil => intro ys r h; cases ys <;> simpa [eqListF, eqListBy] using h.symm
        | cons x xs ihx =>
          intro ys r h
          cases ys with
          | nil => simpa [eqListF, eqListBy] using h.symm
          | cons y ys =>
            rw [eqListF] at h
            rw [eqListBy]
            obtain ⟨t, ht, h⟩ := Option.bind_eq_some_iff.1 h
            have ht' := ih x (by simp) n y t ht
            change t = Value.eqBy _ x y at ht'
            rw [← ht']
            cases t with
            | false => simpa using h.symm
            | true => simpa using ihx (fun e he => ih e (by simp [he])) ys r h
      cases b with
      | array ys =>
        rw [Value.eqF] at h
        show r = eqListBy _ xs ys
        by_cases hl : (xs.length == ys.length) = true
        · rw [if_pos hl] at h; exact key ys r h
        · rw [if_neg hl] at h
          cases hx : eqListBy (fun x y : F64 => x.1.ieeeEq y.1) xs ys with
          | false => simpa using h.symm
          | true => exact absurd (by simpa using ((eqListBy_iff _ _ _).1 hx).1) hl
      | _ => simpa [Value.eqF, Value.rustEq, Value.eqBy] using h.symm
  | _ =>
    intro n b r h
    cases n with
    | zero => simp [Value.eqF] at h
    | succ n => simpa [Value.eqF] using h.symm

theorem eqF_fits (a : Value) : UniqueKeys a → ∀ (n : Nat) (b : Value), UniqueKeys b → DepthBelow a n ∨ DepthBelow b n → ∃ r, a.eqF n b = some r := by
  induction a using Value.ind with
  | map m ih =>
    intro hu n b hb hd
    obtain ⟨hn, hus⟩ := uniqueKeys_map.1 hu
    cases n with
    | zero => exact absurd (hd.elim (depthBelow_zero _) (depthBelow_zero _)) id
    | succ n =>
      cases b with
      | map k =>
        obtain ⟨hk, hks⟩ := uniqueKeys_map.1 hb
        rw [depthBelow_map hn, depthBelow_map hk] at hd
        rw [Value.eqF]
        by_cases hl : (m.length == k.length) = true
        · rw [if_pos hl]
          clear hl hn hu
          induction m with
          | nil => exact ⟨true, rfl⟩
          | cons e m ihm =>
            obtain ⟨key, v⟩ := e
            rw [eqMapF, eqEntryF]
            cases hg : hmGet k key with
            | none => exact ⟨false, rfl⟩
            | some w =>
              have hw : (key, w) ∈ k := hmGet_mem hg
              obtain ⟨r, hr⟩ := ih (key, v) (by simp) (hus _ (by simp)) n w (hks _ hw) (hd.imp (fun h => h _ (by simp)) fun h => h _ hw)
              simp only [] at hr ⊢
              rw [hr, Option.bind_some]
              cases r with
              | false => exact ⟨false, rfl⟩
              | true => exact ihm (fun e he => ih e (by simp [he])) (fun e he => hus e (by simp [he])) (hd.imp (fun h e he => h e (by simp [he])) id)
        · rw [if_neg hl]; exact ⟨false, rfl⟩
      | _ => exact ⟨false, rfl⟩
  | array xs ih =>
    intro hu n b hb hd
    have hus := uniqueKeys_array.1 hu
    cases n with
    | zero => exact absurd (hd.elim (depthBelow_zero _) (depthBelow_zero _)) id
    | succ n =>
      cases b with
      | array ys =>
        have hys := uniqueKeys_array.1 hb
        rw [depthBelow_array, depthBelow_array] at hd
        rw [Value.eqF]
        by_cases hl : (xs.length == ys.length) = true
        · rw [if_pos hl]
          clear hl hu hb
          induction xs generalizing ys with
          | nil => cases ys <;> exact ⟨_, rfl⟩
          | cons x xs ihx =>
            cases ys with
            | nil => exact ⟨_, rfl⟩
            | cons y ys =>
              rw [eqListF]
              obtain ⟨r, hr⟩ := ih x (by simp) (hus _ (by simp)) n y (hys _ (by simp)) (hd.imp (fun h => h _ (by simp)) fun h => h _ (by simp))
              rw [hr, Option.bind_some]
              cases r with
              | false => exact ⟨false, rfl⟩
              | true =>
                exact ihx (fun e he => ih e (by simp [he])) (fun e he => hus e (by simp [he])) ys
                  (hd.imp (fun h e he => h e (by simp [he])) fun h e he => h e (by simp [he])) (fun e he => hys e (by simp [he]))
        · rw [if_neg hl]; exact ⟨false, rfl⟩
      | _ => exact ⟨false, rfl⟩
  | _ =>
    intro _ n b _ hd
    cases n with
    | zero => exact absurd (hd.elim (depthBelow_zero _) (depthBelow_zero _)) id
    | succ n => exact ⟨_, by simp [Value.eqF]; rfl⟩

theorem eqF_true (a : Value) : UniqueKeys a → ∀ (n : Nat) (b : Value), a.eqF n b = some true → DepthBelow a n := by
  induction a using Value.ind with
  | map m ih =>
    intro hu n b h
    obtain ⟨hn, hus⟩ := uniqueKeys_map.1 hu
    cases n with
    | zero => simp [Value.eqF] at h
    | succ n =>
      rw [depthBelow_map hn]
      cases b with
      | map k =>
        rw [Value.eqF] at h
        split at h
        · clear hn hu
          rename_i hl; clear hl
          induction m with
          | nil => simp
          | cons e m ihm =>
            obtain ⟨key, v⟩ := e
            rw [eqMapF, eqEntryF] at h
            cases hg : hmGet k key with
            | none => simp [hg] at h
            | some w =>
              simp only [hg] at h
              obtain ⟨t, ht, h⟩ := Option.bind_eq_some_iff.1 h
              cases t with
              | false => cases h
              | true =>
                intro e he
                rcases List.mem_cons.1 he with rfl | he
                · exact ih (key, v) (by simp) (hus _ (by simp)) n w ht
                · exact ihm (fun e he => ih e (by simp [he])) (fun e he => hus e (by simp [he])) h e he
        · cases h
      | _ => cases h
  | array xs ih =>
    intro hu n b h
    have hus := uniqueKeys_array.1 hu
    cases n with
    | zero => simp [Value.eqF] at h
    | succ n =>
      rw [depthBelow_array]
      cases b with
      | array ys =>
        rw [Value.eqF] at h
        split at h
        · clear hu
          rename_i hl; clear hl
          induction xs generalizing ys with
          | nil => simp
          | cons x xs ihx =>
            cases ys with
            | nil => cases h
            | cons y ys =>
              rw [eqListF] at h
              obtain ⟨t, ht, h⟩ := Option.bind_eq_some_iff.1 h
              cases t with
              | false => cases h
              | true =>
                intro e he
                rcases List.mem_cons.1 he with rfl | he
                · exact ih _ (by simp) (hus _ (by simp)) n y ht
                · exact ihx (fun e he => ih e (by simp [he])) (fun e he => hus e (by simp [he])) ys h e he
        · cases h
      | _ => cases h
  | _ =>
    intro _ n b h
    cases n with
    | zero => simp [Value.eqF] at h
    | succ n => exact depthBelow_scalar rfl rfl n

theorem depth_of_equal {a b : Value} (ha : UniqueKeys a) (hb : UniqueKeys b) (h : a.rustEq b = true) {n : Nat} (hd : DepthBelow a n) : DepthBelow b n := by
  intro p hp
  have := (rustEq_iff ha hb).1 h p
  unfold AgreeAt at this
  refine hd p fun hx => ?_
  rw [hx] at this
  cases hy : view b p with
  | none => exact hp hy
  | some _ => simp [hy] at this

/-- **C135.** Comparing two values is safe if either of them is nested less than `n` deep; a comparison that goes through says what `==` says; and two equal
values can be compared exactly if they (both) are nested less than `n` deep. -/
theorem C135_compare (a b : Value) (ha : UniqueKeys a) (hb : UniqueKeys b) (n : Nat) :
    (∀ r, a.eqF n b = some r → r = a.rustEq b) ∧
    (DepthBelow a n ∨ DepthBelow b n → a.eqF n b = some (a.rustEq b)) ∧
    (a.rustEq b = true → (DepthBelow a n ↔ DepthBelow b n) ∧ (¬ DepthBelow a n → a.eqF n b = none)) := by
  refine ⟨fun r h => eqF_sound a n b r h, fun h => ?_, fun h => ⟨⟨depth_of_equal ha hb h, fun hd p hp => ?_⟩, fun hd => ?_⟩⟩
  · obtain ⟨r, hr⟩ := eqF_fits a ha n b hb h
    rw [hr, eqF_sound a n b r hr]
  · have := (rustEq_iff ha hb).1 h p
    unfold AgreeAt at this
    refine hd p fun hx => ?_
    rw [hx] at this
    cases hy : view a p with
    | none => exact hp hy
    | some _ => simp [hy] at this
  · cases hr : a.eqF n b with
    | none => rfl
    | some r => exact absurd (eqF_true a ha n b (by rw [hr, eqF_sound a n b r hr, h])) hd

/-! ## Reading a document -/

theorem docBelow_zero (d : Doc) : ¬ DocBelow d 0 := fun h => nomatch h
theorem docBelow_some {d : Doc} {n : Nat} : DocBelow (.some d) (n + 1) ↔ DocBelow d n :=
  ⟨fun h => by cases h with | leaf _ _ h1 _ _ => exact absurd rfl (h1 _) | some h => exact h, .some⟩
theorem docBelow_seq {ds : List Doc} {n : Nat} : DocBelow (.seq ds) (n + 1) ↔ ∀ d ∈ ds, DocBelow d n :=
  ⟨fun h => by cases h with | leaf _ _ _ h2 _ => exact absurd rfl (h2 _) | seq h => exact h, .seq⟩
theorem docBelow_map {es : List (Doc × Doc)} {n : Nat} : DocBelow (.map es) (n + 1) ↔ ∀ e ∈ es, DocBelow e.2 n :=
  ⟨fun h => by cases h with | leaf _ _ _ _ h3 => exact absurd rfl (h3 _) | map h => exact h, .map⟩

theorem visitF_sound (d : Doc) : ∀ (n : Nat) (r : Except String Value), visitF n d = some r → r = visit d := by
  induction d using Doc.ind with
  | some d ih =>
    intro n r h
    cases n with
    | zero => simp [visitF] at h
    | succ n => rw [visitF] at h; rw [visit]; exact ih n r h
  | seq ds ih =>
    intro n r h
    cases n with
    | zero => simp [visitF] at h
    | succ n =>
      rw [visitF] at h; rw [visit]
      revert h
      generalize ([] : List Value) = acc
      induction ds generalizing acc with
      | nil => intro h; simpa [visitSeqF, visitSeq] using h.symm
      | cons d ds ihd =>
        intro h
        rw [visitSeqF] at h; rw [visitSeq]
        obtain ⟨t, ht, h⟩ := Option.bind_eq_some_iff.1 h
        rw [← ih d (by simp) n t ht]
        cases t with
        | error e => exact (Option.some.inj h).symm
        | ok x => exact ihd (fun e he => ih e (by simp [he])) _ h
  | map es ih =>
    intro n r h
    cases n with
    | zero => simp [visitF] at h
    | succ n =>
      rw [visitF] at h; rw [visit]
      revert h
      generalize ([] : Entries) = acc
      induction es generalizing acc with
      | nil => intro h; simpa [visitMapF, visitMap] using h.symm
      | cons e es ihe =>
        intro h
        obtain ⟨k, d⟩ := e
        rw [visitMapF, visitEntryF] at h; rw [visitMap, visitEntry]
        cases hk : visitKey k with
        | error m => simp only [hk] at h; exact (Option.some.inj h).symm
        | ok key =>
          simp only [hk] at h
          cases ht : visitF n d with
          | none => simp [ht] at h
          | some t =>
            have := (ih (k, d) (by simp)).2 n t ht
            simp only [] at this
            rw [← this]
            rw [ht] at h
            cases t with
            | error e => exact (Option.some.inj h).symm
            | ok x => exact ihe (fun e he => ih e (by simp [he])) _ h
  | _ =>
    intro n r h
    cases n with
    | zero => simp [visitF] at h
    | succ n => simpa [visitF] using h.symm

theorem visitF_fits (d : Doc) : ∀ (n : Nat), DocBelow d n → ∃ r, visitF n d = some r := by
  induction d using Doc.ind with
  | some d ih =>
    intro n h
    cases n with
    | zero => exact absurd h (docBelow_zero _)
    | succ n => rw [visitF]; exact ih n (docBelow_some.1 h)
  | seq ds ih =>
    intro n h
    cases n with
    | zero => exact absurd h (docBelow_zero _)
    | succ n =>
      rw [visitF]
      replace h := docBelow_seq.1 h
      generalize ([] : List Value) = acc
      induction ds generalizing acc with
      | nil => exact ⟨_, rfl⟩
      | cons d ds ihd =>
        rw [visitSeqF]
        obtain ⟨r, hr⟩ := ih d (by simp) n (h d (by simp))
        rw [hr, Option.bind_some]
        cases r with
        | error e => exact ⟨_, rfl⟩
        | ok x => exact ihd (fun e he => ih e (by simp [he])) (fun e he => h e (by simp [he])) _
  | map es ih =>
    intro n h
    cases n with
    | zero => exact absurd h (docBelow_zero _)
    | succ n =>
      rw [visitF]
      replace h := docBelow_map.1 h
      generalize ([] : Entries) = acc
      induction es generalizing acc with
      | nil => exact ⟨_, rfl⟩
      | cons e es ihe =>
        obtain ⟨k, d⟩ := e
        rw [visitMapF, visitEntryF]
        cases hk : visitKey k with
        | error m => exact ⟨_, rfl⟩
        | ok key =>
          obtain ⟨r, hr⟩ := (ih (k, d) (by simp)).2 n (h (k, d) (by simp))
          simp only [] at hr ⊢
          rw [hr]
          cases r with
          | error e => exact ⟨_, rfl⟩
          | ok x => exact ihe (fun e he => ih e (by simp [he])) (fun e he => h e (by simp [he])) _
  | _ =>
    intro n h
    cases n with
    | zero => exact absurd h (docBelow_zero _)
    | succ n => exact ⟨_, by simp [visitF]; rfl⟩

theorem visitF_ok (d : Doc) : ∀ (n : Nat) (v : Value), visitF n d = some (.ok v) → DocBelow d n := by
  induction d using Doc.ind with
  | some d ih =>
    intro n v h
    cases n with
    | zero => simp [visitF] at h
    | succ n => rw [visitF] at h; exact docBelow_some.2 (ih n v h)
  | seq ds ih =>
    intro n v h
    cases n with
    | zero => simp [visitF] at h
    | succ n =>
      rw [visitF] at h
      refine docBelow_seq.2 ?_
      revert h
      generalize ([] : List Value) = acc
      induction ds generalizing acc with
      | nil => simp
      | cons d ds ihd =>
        intro h
        rw [visitSeqF] at h
        obtain ⟨t, ht, h⟩ := Option.bind_eq_some_iff.1 h
        cases t with
        | error e => cases h
        | ok x =>
          intro e he
          rcases List.mem_cons.1 he with rfl | he
          · exact ih _ (by simp) n x ht
          · exact ihd (fun e he => ih e (by simp [he])) _ h e he
  | map es ih =>
    intro n v h
    cases n with
    | zero => simp [visitF] at h
    | succ n =>
      rw [visitF] at h
      refine docBelow_map.2 ?_
      revert h
      generalize ([] : Entries) = acc
      induction es generalizing acc with
      | nil => simp
      | cons e es ihe =>
        intro h
        obtain ⟨k, d⟩ := e
        rw [visitMapF, visitEntryF] at h
        cases hk : visitKey k with
        | error m => simp [hk] at h
        | ok key =>
          simp only [hk] at h
          cases ht : visitF n d with
          | none => simp [ht] at h
          | some t =>
            rw [ht] at h
            cases t with
            | error e => cases h
            | ok x =>
              intro e he
              rcases List.mem_cons.1 he with rfl | he
              · exact (ih (k, d) (by simp)).2 n x ht
              · exact ihe (fun e he => ih e (by simp [he])) _ h e he
  | _ =>
    intro n v h
    cases n with
    | zero => simp [visitF] at h
    | succ n => exact .leaf _ _ nofun nofun nofun

theorem mem_foldl_insert (kvs : Entries) : ∀ (acc : Entries) (e : String × Value), e ∈ kvs.foldl (fun m kv => hmInsert m kv.1 kv.2) acc →
    e.2 ∈ kvs.map Prod.snd ∨ e.2 ∈ acc.map Prod.snd := by
  induction kvs with
  | nil => intro acc e he; exact .inr (List.mem_map_of_mem he)
  | cons kv kvs ih =>
    intro acc e he
    rw [List.foldl_cons] at he
    rcases ih _ e he with h | h
    · exact .inl (by simp only [List.map_cons, List.mem_cons]; exact .inr h)
    · have : ∀ (m : Entries) (x : Value), x ∈ (hmInsert m kv.1 kv.2).map Prod.snd → x = kv.2 ∨ x ∈ m.map Prod.snd := by
        intro m x
        induction m with
        | nil => simp [hmInsert]
        | cons d m ihm =>
          intro hx
          rw [hmInsert] at hx
          split at hx
          · simp only [List.map_cons, List.mem_cons] at hx ⊢
            exact hx.imp id .inr
          · simp only [List.map_cons, List.mem_cons] at hx ⊢
            rcases hx with hx | hx
            · exact .inr (.inl hx)
            · exact (ihm hx).imp id .inr
      rcases this _ _ h with h | h
      · exact .inl (by simp only [List.map_cons, List.mem_cons]; exact .inl h)
      · exact .inr h

theorem depth_visit (d : Doc) : ∀ (n : Nat) (v : Value), visit d = .ok v → DocBelow d n → DepthBelow v n := by
  induction d using Doc.ind with
  | some d ih =>
    intro n v h hd
    cases n with
    | zero => exact absurd hd (docBelow_zero _)
    | succ n => rw [visit] at h; exact depth_mono (ih n v h (docBelow_some.1 hd)) (by omega)
  | seq ds ih =>
    intro n v h hd
    cases n with
    | zero => exact absurd hd (docBelow_zero _)
    | succ n =>
      rw [visit] at h
      have hd := docBelow_seq.1 hd
      obtain ⟨xs, rfl, hp⟩ := (visitSeq_ok ds [] v).1 h
      refine depthBelow_array.2 fun x hx => ?_
      obtain ⟨d, hds, hdx⟩ := hp.right x (by simpa using hx)
      exact ih d hds n x hdx (hd d hds)
  | map es ih =>
    intro n v h hd
    cases n with
    | zero => exact absurd hd (docBelow_zero _)
    | succ n =>
      have hu := uniqueKeys_visit _ _ h
      rw [visit] at h
      have hd := docBelow_map.1 hd
      obtain ⟨xs, rfl, hp⟩ := (visitMap_ok es [] v).1 h
      refine (depthBelow_map (uniqueKeys_map.1 hu).1).2 fun e he => ?_
      rcases mem_foldl_insert xs [] e he with h | h
      · obtain ⟨kv, hkv, hx⟩ := List.mem_map.1 h
        obtain ⟨e', he', -, h2⟩ := hp.right kv hkv
        rw [← hx]
        exact (ih e' he').2 n kv.2 h2 (hd e' he')
      · cases h
  | int t k => intro n v h hd; cases n with
    | zero => exact absurd hd (docBelow_zero _)
    | succ n => cases t <;> (rw [visit] at h; cases h; exact depthBelow_scalar rfl rfl n)
  | _ =>
    intro n v h hd
    cases n with
    | zero => exact absurd hd (docBelow_zero _)
    | succ n => rw [visit] at h; cases h <;> exact depthBelow_scalar rfl rfl n

/-- **C135.** A document nested less than `n` deep is read, or refused, as usual on a stack that takes `n` nested calls, and the value read from it is nested less than
`n` deep; a deeper one is never read: it is refused before the reader gets to where it is too deep, or the stack overflows. -/
theorem C135_read (d : Doc) (n : Nat) :
    (DocBelow d n → visitF n d = some (visit d) ∧ ∀ v, visit d = .ok v → DepthBelow v n) ∧
    (¬ DocBelow d n → ∀ v, visit d = .ok v → visitF n d = none) ∧
    (∀ r, visitF n d = some r → r = visit d) := by
  refine ⟨fun h => ⟨?_, fun v hv => depth_visit d n v hv h⟩, fun h v hv => ?_, fun r => visitF_sound d n r⟩
  · obtain ⟨r, hr⟩ := visitF_fits d n h
    rw [hr, visitF_sound d n r hr]
  · cases hr : visitF n d with
    | none => rfl
    | some r => exact absurd (visitF_ok d n v (by rw [hr, visitF_sound d n r hr, hv])) h

/-- **C135.** Whether a comparison of deep values overflows the stack can hang on the order in which the left map is walked through: with an entry that differs first it
answers `false`, with the deep entry first the stack overflows. -/
theorem C135_order (k1 k2 : String) (hk : k1 ≠ k2) (x y v : Value) (n : Nat) (hx : x.eqF n y = some false) (hv : UniqueKeys v) (he : v.rustEq v = true)
    (hd : ¬ DepthBelow v n) :
    (Value.map [(k1, x), (k2, v)]).eqF (n + 1) (.map [(k1, y), (k2, v)]) = some false ∧
    (Value.map [(k2, v), (k1, x)]).eqF (n + 1) (.map [(k1, y), (k2, v)]) = none := by
  have h1 : hmGet [(k1, y), (k2, v)] k1 = some y := by simp [hmGet]
  have h2 : hmGet [(k1, y), (k2, v)] k2 = some v := by simp [hmGet, hk]
  constructor
  · rw [Value.eqF, if_pos (by rfl), eqMapF, eqEntryF]
    simp only [h1]
    rw [hx]; rfl
  · rw [Value.eqF, if_pos (by rfl), eqMapF, eqEntryF]
    simp only [h2]
    rw [((C135_compare v v hv hv n).2.2 he).2 hd]; rfl

/-! ## A whole configuration -/

/-- **C135.** If every layer that can be read is nested less than `n` deep, a program with a stack of `n` nested calls builds the configuration, and can
clone, drop, show, serialize and compare (with anything) what it has built; a part of it can be taken out and cloned as well. -/
theorem C135_program (b : Build) (fm : Formats) (calls : List RegCall) (w : World) (skip : Bool) (hp : ∀ e ∈ firsts (offers b fm calls), Proper e.2) (n : Nat) (hn : 0 < n)
    (hd : ∀ e ∈ firsts (offers b fm calls), ∀ x, e.2.readValue w = .ok x → DepthBelow x n) :
    (register b fm calls).buildValueF n w skip = some ((register b fm calls).buildValue w skip) ∧
    ∀ v, (register b fm calls).buildValue w skip = .ok v →
      v.cloneF n = some () ∧ v.dropF n = some () ∧ v.displayF n = some v.display ∧ v.toDataF n = some v.toData ∧
      (∀ x, UniqueKeys x → v.eqF n x = some (v.rustEq x) ∧ x.eqF n v = some (x.rustEq v)) ∧
      (∀ s x, child v s = some x → x.cloneF n = some ()) := by
  refine ⟨(C126_build_stack b fm calls w skip hp n hn).1 hd, fun v h => ?_⟩
  have hu := (C08_map b fm calls w skip v h).2 hp
  have hdv := C121_depth b fm calls w skip v h hp n hn fun e he x hx _ => hd e he x hx
  obtain ⟨h1, h2, h3, h4⟩ := (C135_exact v hu n).1 hdv
  exact ⟨h1, h2, h3, h4, fun x hx => ⟨(C135_compare v x hu hx n).2.1 (.inl hdv), (C135_compare x v hx hu n).2.1 (.inr hdv)⟩,
    fun s x hx => (cloneF_iff x (uniqueKeys_child hu hx) n).2 (depth_child' hdv hx)⟩

/-! ## Values that can be made but not dropped -/

theorem set_new (k : String) (v : Value) : (Value.map []).set k v = (.ok (), .map [(k, v)]) := rfl

theorem nestIn_depth (ks : List String) : ∀ (v : Value), UniqueKeys v →
    UniqueKeys (nestIn v ks) ∧ ∀ n, DepthBelow (nestIn v ks) (n + ks.length) ↔ DepthBelow v n := by
  induction ks with
  | nil => exact fun v hu => ⟨hu, fun n => Iff.rfl⟩
  | cons k ks ih =>
    intro v hu
    have hu' : UniqueKeys (.map [(k, v)]) := uniqueKeys_map.2 ⟨by simp, by simpa using hu⟩
    obtain ⟨h1, h2⟩ := ih (.map [(k, v)]) hu'
    refine ⟨h1, fun n => ?_⟩
    have := h2 (n + 1)
    rw [depthBelow_map (by simp)] at this
    simp only [List.mem_cons, List.not_mem_nil, or_false, forall_eq] at this
    rw [← this, List.length_cons, show n + (ks.length + 1) = n + 1 + ks.length by omega]
    rfl

/-- **C135.** A loop of `set` on new maps nests a value one deeper for each key, whatever the stack takes (each `set` succeeds, and calls nothing for the values inside);
but once it is nested too deep for the stack, it can be neither dropped nor cloned, shown, serialized or compared with itself: the program has no way to get rid of it in one piece. -/
theorem C135_made (v : Value) (hu : UniqueKeys v) (ks : List String) (n : Nat) :
    (∀ k ∈ ks, ∀ x, ((Value.map []).set k x).1 = .ok ()) ∧
    (DepthBelow (nestIn v ks) (n + ks.length) ↔ DepthBelow v n) ∧
    (n ≤ ks.length → (nestIn v ks).dropF n = none ∧ (nestIn v ks).cloneF n = none ∧ (nestIn v ks).displayF n = none ∧ (nestIn v ks).toDataF n = none ∧
      (¬ ContainsNaN v → (nestIn v ks).eqF n (nestIn v ks) = none)) := by
  obtain ⟨h1, h2⟩ := nestIn_depth ks v hu
  refine ⟨fun _ _ _ => rfl, h2 n, fun hn => ?_⟩
  have hd : ¬ DepthBelow (nestIn v ks) n := fun h => depthBelow_zero v ((h2 0).1 (depth_mono h (by omega)))
  obtain ⟨a, b, c, d⟩ := (C135_exact _ h1 n).2 hd
  refine ⟨b, a, c, d, fun hnan => ((C135_compare _ _ h1 h1 n).2.2 ?_).2 hd⟩
  have key : ∀ (ks : List String) (v : Value), v.rustEq v = true → (nestIn v ks).rustEq (nestIn v ks) = true := by
    intro ks
    induction ks with
    | nil => exact fun v h => h
    | cons k ks ih =>
      intro v h
      refine ih (.map [(k, v)]) ?_
      have h' : Value.eqBy (fun x y => x.1.ieeeEq y.1) v v = true := h
      simp [Value.rustEq, Value.eqBy, eqMapBy, eqEntryBy, hmGet, h']
  exact key ks v ((C21_refl v hu).2 hnan)

/-! ## Examples -/

def exNest : Value := nestIn (.array [.none, .string "x"]) ["a", "b", "a"]

theorem exNest_unique : UniqueKeys exNest := (nestIn_depth _ _ (by simp [UniqueKeys, UniqueKeysList])).1

theorem exNest_depth (n : Nat) : DepthBelow exNest n ↔ 4 < n := by
  constructor
  · intro h; exact h [.key "a", .key "b", .key "a", .idx 0] (by simp [exNest, nestIn, Value.set, hmInsert, view, child])
  · intro h
    obtain ⟨m, rfl⟩ : ∃ m, n = m + 2 + 3 := ⟨n - 5, by omega⟩
    refine ((nestIn_depth ["a", "b", "a"] (.array [.none, .string "x"]) (by simp [UniqueKeys, UniqueKeysList])).2 (m + 2)).2 ?_
    refine depthBelow_array.2 fun x hx => ?_
    simp only [List.mem_cons, List.not_mem_nil, or_false] at hx
    rcases hx with rfl | rfl <;> exact depthBelow_scalar rfl rfl m

/-- Five nested calls are enough, four are not. -/
example : exNest.displayF 5 = some "{a: {b: {a: [none, x]}}}" ∧ exNest.displayF 4 = none ∧ exNest.dropF 5 = some () ∧ exNest.dropF 4 = none :=
  ⟨((C135_exact _ exNest_unique 5).1 ((exNest_depth 5).2 (by decide))).2.2.1.trans (by rfl),
   ((C135_exact _ exNest_unique 4).2 (fun h => absurd ((exNest_depth 4).1 h) (by decide))).2.2.1,
   ((C135_exact _ exNest_unique 5).1 ((exNest_depth 5).2 (by decide))).2.1,
   ((C135_exact _ exNest_unique 4).2 (fun h => absurd ((exNest_depth 4).1 h) (by decide))).2.1⟩

/-- Compared with something shallow, one call is enough on one side or the other. -/
example : exNest.eqF 1 .none = some false ∧ Value.none.eqF 1 exNest = some false :=
  ⟨(C135_compare exNest .none exNest_unique (by simp [UniqueKeys]) 1).2.1 (.inr (depthBelow_scalar rfl rfl 0)),
   (C135_compare .none exNest (by simp [UniqueKeys]) exNest_unique 1).2.1 (.inl (depthBelow_scalar rfl rfl 0))⟩
example : exNest.rustEq exNest = true ∧ exNest.eqF 4 exNest = none :=
  ⟨by rfl, ((C135_compare exNest exNest exNest_unique exNest_unique 4).2.2 (by rfl)).2 fun h => absurd ((exNest_depth 4).1 h) (by decide)⟩

/-- The order decides. -/
example : (Value.map [("n", .none), ("deep", exNest)]).eqF 5 (.map [("n", .boolean true), ("deep", exNest)]) = some false ∧
    (Value.map [("deep", exNest), ("n", .none)]).eqF 5 (.map [("n", .boolean true), ("deep", exNest)]) = none :=
  C135_order "n" "deep" (by decide) .none (.boolean true) exNest 4 rfl exNest_unique (by rfl) fun h => absurd ((exNest_depth 4).1 h) (by decide)

/-- A document: read with three nested calls, not with two; one that is refused in time is refused even with two. -/
example : visitF 3 (.map [(.str "a", .seq [.bool true])]) = some (.ok (.map [("a", .array [.boolean true])])) ∧ visitF 2 (.map [(.str "a", .seq [.bool true])]) = none ∧
    visitF 2 (.map [(.bool true, .enum), (.str "a", .seq [.bool true])]) = some (.error "invalid type, expected a string") := by
  have hb : DocBelow (.map [(.str "a", .seq [.bool true])]) 3 := .map (by simpa using .seq (by simpa using .leaf _ _ nofun nofun nofun))
  have hn : ¬ DocBelow (.map [(.str "a", .seq [.bool true])]) 2 := fun h =>
    docBelow_zero _ (docBelow_seq.1 (docBelow_map.1 h _ (List.mem_singleton_self _)) _ (List.mem_singleton_self _))
  exact ⟨((C135_read _ 3).1 hb).1.trans (by rfl), (C135_read _ 2).2.1 hn _ (by rfl), by rfl⟩

/-- The two layers of the example of C126, built and shown with three nested calls. -/
example (w : World) (skip : Bool) : ∃ v, (register exB1 exFormats exCostCalls).buildValueF 3 w skip = some (.ok v) ∧ v.displayF 3 = some v.display := by
  have hd : ∀ e ∈ firsts (offers exB1 exFormats exCostCalls), ∀ x, e.2.readValue w = .ok x → DepthBelow x 3 := by
    have : firsts (offers exB1 exFormats exCostCalls) = [("a", .memory exCostA), ("b", .memory exCostB)] := by rfl
    rw [this]
    intro e he x hx
    simp only [List.mem_cons, List.not_mem_nil, or_false] at he
    rcases he with rfl | rfl
    · cases hx; exact exCostA_depth
    · cases hx; exact exCostB_depth
  obtain ⟨h1, h2⟩ := C135_program exB1 exFormats exCostCalls w skip exCost_proper 3 (by decide) hd
  obtain ⟨v, hv⟩ : ∃ v, (register exB1 exFormats exCostCalls).buildValue w skip = .ok v := ⟨_, rfl⟩
  exact ⟨v, by rw [h1, hv], (h2 v hv).2.2.1⟩

/-- A loop of a million rounds makes a value that a stack of 30000 nested calls cannot drop. -/
example : (nestIn .none (List.replicate 1000000 "next")).dropF 30000 = none :=
  ((C135_made .none (by simp [UniqueKeys]) _ 30000).2.2 (by rw [List.length_replicate]; decide)).1

end Verif.Props
