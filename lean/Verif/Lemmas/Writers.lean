import Verif.Model.Writers
import Verif.Lemmas.Layer
import Mathlib.Logic.Function.Basic
/-! # Lemmas: several processes at one file -/
namespace Verif
open Spec

theorem overwrite_get (bs piece : List UInt8) (off k : Nat) :
    (overwrite bs off piece)[k]? =
      if piece = [] then bs[k]? else if k < off then (if k < bs.length then bs[k]? else some 0)
      else if k < off + piece.length then piece[k - off]? else bs[k]? := by
  unfold overwrite
  cases piece with
  | nil => simp
  | cons x xs =>
    simp only [List.isEmpty_cons, Bool.false_eq_true, if_false, reduceCtorEq]
    generalize hp : x :: xs = p
    by_cases h1 : k < off
    · rw [if_pos h1]
      by_cases h2 : k < bs.length
      · rw [if_pos h2, List.append_assoc, List.append_assoc, List.getElem?_append_left (by simp; omega), List.getElem?_take_of_lt h1]
      · rw [if_neg h2, List.append_assoc, List.append_assoc, List.getElem?_append_right (by simp; omega),
          List.getElem?_append_left (by simp; omega), List.getElem?_replicate]
        simp; omega
    · rw [if_neg h1]
      by_cases h3 : k < off + p.length
      · rw [if_pos h3, List.append_assoc, List.getElem?_append_right (by simp; omega), List.getElem?_append_left (by simp; omega)]
        congr 1; simp; omega
      · rw [if_neg h3, List.getElem?_append_right (by simp; omega), List.getElem?_drop]
        congr 1; simp; omega

theorem overwrite_end (bs piece : List UInt8) : overwrite bs bs.length piece = bs ++ piece := by
  unfold overwrite
  cases piece with
  | nil => simp
  | cons x xs => simp

theorem overwrite_length_le {bs piece : List UInt8} {off n : Nat} (h1 : bs.length ≤ n) (h2 : off + piece.length ≤ n) :
    (overwrite bs off piece).length ≤ n := by
  unfold overwrite
  cases piece with
  | nil => simpa using h1
  | cons x xs => simp at h2 ⊢; omega

theorem onlyAt_writeAt (w : World) (slot off : Nat) (piece : List UInt8) : OnlyAt slot w (w.writeAt slot off piece) := by
  unfold World.writeAt
  split
  · exact onlyAt_put _ _ _
  · exact OnlyAt.refl _ _

theorem writeAt_file {w : World} {slot : Nat} {bs : List UInt8} {r wr : Option Nat} (h : w.disk slot = .file bs r wr)
    (off : Nat) (piece : List UInt8) : (w.writeAt slot off piece).disk slot = .file (overwrite bs off piece) r wr := by
  unfold World.writeAt
  rw [h]; simp [World.put]

/-! ## Readers -/

theorem readRun_const {c : List UInt8} {t : Nat} {got bytes : List UInt8} (h : ReadRun (fun _ => c) t got bytes)
    (hg : got <+: c) : bytes = c := by
  induction h with
  | eof hl => exact hg.eq_of_length_le hl
  | @piece t got bytes n hn hl h ih =>
    apply ih
    obtain ⟨r, rfl⟩ := hg
    rw [List.drop_left]
    exact ⟨r.drop n, by rw [List.append_assoc, List.take_append_drop]⟩

/-- Every byte was in the file, at its position, at some moment; later ones not earlier. -/
theorem readRun_bytes {cs : Nat → List UInt8} {t : Nat} {got bytes : List UInt8} (h : ReadRun cs t got bytes) :
    ∃ when : Nat → Nat, (∀ i, t ≤ when i) ∧ (∀ i j, i ≤ j → when i ≤ when j) ∧ got <+: bytes ∧
      ∀ i, got.length ≤ i → i < bytes.length → (cs (when i))[i]? = bytes[i]? := by
  induction h with
  | @eof t got hl =>
    exact ⟨fun _ => t, fun _ => le_refl _, fun _ _ _ => le_refl _, List.prefix_refl _, fun i h1 h2 => by omega⟩
  | @piece t got bytes n hn hl h ih =>
    obtain ⟨when, h1, h2, h3, h4⟩ := ih
    have hp : got <+: bytes := (List.prefix_append _ _).trans h3
    generalize hpd : ((cs t).drop got.length).take n = p at *
    refine ⟨fun i => if i < (got ++ p).length then t else when i, ?_, ?_, hp, ?_⟩
    · intro i; dsimp only; split
      · exact le_refl _
      · have := h1 i; omega
    · intro i j hij
      dsimp only
      split <;> split
      · exact le_refl _
      · have := h1 j; omega
      · omega
      · exact h2 i j hij
    · intro i hi hb
      dsimp only
      by_cases hin : i < (got ++ p).length
      · rw [if_pos hin]
        have e : bytes[i]? = (got ++ p)[i]? := by
          obtain ⟨r, rfl⟩ := h3
          rw [List.getElem?_append_left hin]
        have hlt : i - got.length < n := by
          rw [List.length_append, ← hpd, List.length_take] at hin; omega
        rw [e, List.getElem?_append_right hi, ← hpd, List.getElem?_take_of_lt hlt, List.getElem?_drop]
        congr 1; omega
      · rw [if_neg hin]
        exact h4 i (by omega) hb

/-- A reader among changes from one content to prefixes of another. -/
theorem readRun_mix {cs : Nat → List UInt8} {old new bytes : List UInt8} (begun : Nat → Prop)
    (hmono : ∀ s t, s ≤ t → begun s → begun t) (hold : ∀ t, ¬ begun t → cs t = old)
    (hnew : ∀ t, begun t → ∃ k, cs t = new.take k) (h : ReadRun cs 0 [] bytes) :
    ∃ n m, n ≤ old.length ∧ bytes = old.take n ++ (new.drop n).take m := by
  classical
  obtain ⟨when, -, h2, -, h4⟩ := readRun_bytes h
  have key : ∃ n, n ≤ bytes.length ∧ ∀ i, i < bytes.length → (i < n → ¬ begun (when i)) ∧ (n ≤ i → begun (when i)) := by
    by_cases hex : ∃ i, i < bytes.length ∧ begun (when i)
    · refine ⟨Nat.find hex, le_of_lt (Nat.find_spec hex).1, fun i hi => ⟨fun hlt hb => Nat.find_min hex hlt ⟨hi, hb⟩, fun hle => ?_⟩⟩
      exact hmono _ _ (h2 _ _ hle) (Nat.find_spec hex).2
    · refine ⟨bytes.length, le_refl _, fun i hi => ⟨fun _ hb => hex ⟨i, hi, hb⟩, fun hle => by omega⟩⟩
  obtain ⟨n, hn, hcase⟩ := key
  have ho : ∀ i, i < n → bytes[i]? = old[i]? := by
    intro i hi
    rw [← h4 i (by simp) (by omega), hold _ ((hcase i (by omega)).1 hi)]
  have hw : ∀ i, n ≤ i → i < bytes.length → bytes[i]? = new[i]? := by
    intro i hi hb
    obtain ⟨k, hk⟩ := hnew _ ((hcase i hb).2 hi)
    have := h4 i (by simp) hb
    rw [hk, List.getElem?_eq_getElem hb, List.getElem?_take] at this
    split at this
    · rw [this, List.getElem?_eq_getElem hb]
    · cases this
  have hno : n ≤ old.length := by
    rcases Nat.eq_zero_or_pos n with h0 | h0
    · omega
    · have := ho (n - 1) (by omega)
      rw [List.getElem?_eq_getElem (by omega)] at this
      have := (List.getElem?_eq_some_iff.1 this.symm).1
      omega
  refine ⟨n, bytes.length - n, hno, List.ext_getElem? fun i => ?_⟩
  by_cases h1 : i < n
  · rw [List.getElem?_append_left (by simp; omega), List.getElem?_take_of_lt h1, ho i h1]
  · rw [List.getElem?_append_right (by simp; omega)]
    have hl : (old.take n).length = n := by simp; omega
    rw [hl]
    by_cases h2 : i < bytes.length
    · rw [List.getElem?_take_of_lt (by omega), List.getElem?_drop, hw i (by omega) h2]
      congr 1; omega
    · rw [List.getElem?_eq_none (by omega), List.getElem?_eq_none (by simp; omega)]

/-! ## One writer -/

theorem WriteSteps.trans {p : OsStr} {content : String} {a b c : Phase × World} (h1 : WriteSteps p content a b)
    (h2 : WriteSteps p content b c) : WriteSteps p content a c := by
  induction h2 with
  | refl => exact h1
  | step _ st ih => exact .step ih st

theorem writeSteps_writing {p : OsStr} {content : String} {a b : Phase × World} (h : WriteSteps p content a b)
    (ha : a.1 ≠ .start) : b.1 ≠ .start := by
  induction h with
  | refl => exact ha
  | step _ st ih => cases st <;> simp

/-- The bytes in the file during `std::fs::write`. -/
theorem writeSteps_bytes {p : OsStr} {content : String} {w : World} {s : Phase × World}
    (h : WriteSteps p content (.start, w) s) :
    (s.1 = .start → s.2 = w) ∧
    (s.1 ≠ .start → ∃ k, s.2.bytesAt (w.locate p) = (utf8 content).take k) ∧
    (s.1 = .writing [] → s.2.bytesAt (w.locate p) = utf8 content) := by
  rcases writeSteps_inv h with rfl | ⟨done, rest, w1, h1, h2, h3, h4⟩
  · exact ⟨fun _ => rfl, fun h => absurd rfl h, (fun h => by cases h)⟩
  · obtain ⟨-, r, hd, -⟩ := onlyAt_open h3
    have hb : s.2.bytesAt (w.locate p) = done := by
      unfold World.bytesAt
      rw [h4, append_file hd done]; simp
    refine ⟨(fun h => by rw [h1] at h; cases h), fun _ => ⟨done.length, ?_⟩, fun h => ?_⟩
    · rw [hb, ← h2]; simp
    · rw [h1] at h
      cases h
      rw [hb, ← h2]; simp

/-! ## Several writers -/

section
variable {ι : Type} [DecidableEq ι] {path : OsStr} {texts : ι → String}

/-- Every writer stands where its position says. -/
def Placed (texts : ι → String) (ph : ι → Writer) : Prop :=
  ∀ i off rest, ph i = .writing off rest → off ≤ (utf8 (texts i)).length ∧ rest = (utf8 (texts i)).drop off

theorem placed_step {s s' : (ι → Writer) × World} {a : Act ι} (h : WritersStep path texts s a s')
    (hp : Placed texts s.1) : Placed texts s'.1 := by
  intro j off rest hj
  cases h with
  | opens i h0 ho =>
    by_cases e : j = i
    · subst e; simp at hj; obtain ⟨rfl, rfl⟩ := hj; simp
    · simp [Function.update_of_ne e] at hj; exact hp j off rest hj
  | @writes ph w i off' piece rest' h0 =>
    by_cases e : j = i
    · subst e
      simp at hj
      obtain ⟨rfl, rfl⟩ := hj
      obtain ⟨h1, h2⟩ := hp j _ _ h0
      have hl := congrArg List.length h2
      simp at hl
      refine ⟨by simp at *; omega, ?_⟩
      rw [← List.drop_drop, ← h2, List.drop_left]
    · simp [Function.update_of_ne e] at hj; exact hp j off rest hj

theorem placed_run {s s' : (ι → Writer) × World} {acts : List (Act ι)} (h : WritersRun path texts s acts s')
    (hp : Placed texts s.1) : Placed texts s'.1 := by
  induction h with
  | nil => exact hp
  | snoc _ st ih => exact placed_step st ih

theorem onlyAt_step {s s' : (ι → Writer) × World} {a : Act ι} (h : WritersStep path texts s a s') :
    OnlyAt (s.2.locate path) s.2 s'.2 := by
  cases h with
  | opens i h0 ho => exact (onlyAt_open ho).1
  | writes i h0 => exact onlyAt_writeAt _ _ _ _

theorem onlyAt_run {s s' : (ι → Writer) × World} {acts : List (Act ι)} (h : WritersRun path texts s acts s') :
    OnlyAt (s.2.locate path) s.2 s'.2 := by
  induction h with
  | nil => exact OnlyAt.refl _ _
  | snoc _ st ih =>
    have := onlyAt_step st
    rw [ih.locate] at this
    exact ih.trans this

theorem run_nil {s s' : (ι → Writer) × World} (h : WritersRun path texts s [] s') : s = s' := by
  generalize he : ([] : List (Act ι)) = acts at h
  cases h with
  | nil => rfl
  | snoc _ _ => simp at he

theorem run_append {s s'' : (ι → Writer) × World} {xs ys : List (Act ι)} (h : WritersRun path texts s (xs ++ ys) s'') :
    ∃ s', WritersRun path texts s xs s' ∧ WritersRun path texts s' ys s'' := by
  generalize he : xs ++ ys = zs at h
  induction h generalizing ys with
  | nil =>
    obtain ⟨rfl, rfl⟩ := List.append_eq_nil_iff.1 he
    exact ⟨_, .nil, .nil⟩
  | @snoc s' s'' acts a h st ih =>
    rcases List.eq_nil_or_concat ys with rfl | ⟨ys', b, rfl⟩
    · rw [List.append_nil] at he; subst he
      exact ⟨_, .snoc h st, .nil⟩
    · rw [List.concat_eq_append, ← List.append_assoc] at he
      have := List.append_inj' he rfl
      obtain ⟨h1, h2⟩ := this
      cases h2
      obtain ⟨m, hm1, hm2⟩ := ih h1
      rw [List.concat_eq_append]
      exact ⟨m, hm1, .snoc hm2 st⟩

/-- After the last opening: the file holds the text up to the last opener's position, and is not longer. -/
structure Covers (slot : Nat) (T : List UInt8) (off : Nat) (w : World) : Prop where
  here : ∃ bs r, w.disk slot = .file bs r none ∧ bs.length ≤ T.length ∧ ∀ k, k < off → bs[k]? = T[k]?

theorem covers_run {i : ι} {s s' : (ι → Writer) × World} {acts : List (Act ι)} (h : WritersRun path texts s acts s')
    (hp : Placed texts s.1) (hno : ∀ j, Act.opens j ∉ acts) (hsame : ∀ j, Act.writes j ∈ acts → texts j = texts i)
    {off : Nat} {rest : List UInt8} (hi : s.1 i = .writing off rest)
    (hc : Covers (s.2.locate path) (utf8 (texts i)) off s.2) :
    ∃ off' rest', s'.1 i = .writing off' rest' ∧ Covers (s.2.locate path) (utf8 (texts i)) off' s'.2 := by
  induction h with
  | nil => exact ⟨off, rest, hi, hc⟩
  | @snoc s1 s2 acts a h st ih =>
    obtain ⟨off1, rest1, hi1, ⟨bs, r, hd, hl, hk⟩⟩ := ih (fun j hj => hno j (by simp [hj])) (fun j hj => hsame j (by simp [hj]))
    have hp1 := placed_run h hp
    have hloc : s1.2.locate path = s.2.locate path := by rw [(onlyAt_run h).locate]
    cases st with
    | opens j h0 ho => exact absurd (by simp) (hno j)
    | @writes ph w j offj piece restj hj =>
      dsimp only at *
      have hT : texts j = texts i := hsame j (by simp)
      obtain ⟨hp2, hp3⟩ := hp1 j _ _ hj
      rw [hT] at hp2 hp3
      have hlen := congrArg List.length hp3
      rw [List.length_append, List.length_drop] at hlen
      have hfit : offj + piece.length ≤ (utf8 (texts i)).length := by
        rw [hT] at *
        omega
      rw [hloc]
      have hd' := writeAt_file hd offj piece
      have hpiece : ∀ k, k < piece.length → piece[k]? = (utf8 (texts i))[offj + k]? := by
        intro k hk2
        rw [← List.getElem?_drop, ← hp3, List.getElem?_append_left hk2]
      have hle : off1 ≤ (utf8 (texts i)).length := (hp1 i _ _ hi1).1
      have hbs : ∀ k, k < off1 → k < bs.length := by
        intro k hk2
        have := hk k hk2
        rw [List.getElem?_eq_getElem (l := utf8 (texts i)) (by omega)] at this
        exact (List.getElem?_eq_some_iff.1 this).1
      have hlen2 : (overwrite bs offj piece).length ≤ (utf8 (texts i)).length :=
        overwrite_length_le hl hfit
      have hget : ∀ k, (k < off1 ∨ (offj ≤ k ∧ k < offj + piece.length)) → (overwrite bs offj piece)[k]? = (utf8 (texts i))[k]? := by
        intro k hk2
        rw [overwrite_get]
        by_cases he : piece = []
        · subst he
          rw [if_pos rfl]
          rcases hk2 with hk2 | hk2
          · exact hk k hk2
          · simp at hk2; omega
        · rw [if_neg he]
          by_cases h1 : k < offj
          · rw [if_pos h1]
            have hk3 : k < off1 := by omega
            rw [if_pos (hbs k hk3), hk k hk3]
          · rw [if_neg h1]
            by_cases h2 : k < offj + piece.length
            · rw [if_pos h2, hpiece _ (by omega)]
              congr 1; omega
            · rw [if_neg h2]
              exact hk k (by omega)
      by_cases e : i = j
      · subst e
        rw [hi1] at hj
        cases hj
        refine ⟨off1 + piece.length, restj, by simp, ⟨_, r, hd', hlen2, fun k hk2 => hget k (by omega)⟩⟩
      · refine ⟨off1, rest1, by simp [Function.update_of_ne e, hi1], ⟨_, r, hd', hlen2, fun k hk2 => hget k (Or.inl hk2)⟩⟩

end

end Verif
