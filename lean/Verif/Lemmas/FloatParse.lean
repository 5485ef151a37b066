import Verif.Lemmas.FloatText
import Verif.Spec.FloatText
/-! # Float parsing against the grammar; overflow of rounding -/
namespace Verif
open Spec

theorem digitsSpell_val {ds : List Char} {n : Nat} : DigitsSpell ds n ↔ ds ≠ [] ∧ (∀ c ∈ ds, '0' ≤ c ∧ c ≤ '9') ∧ n = digitsVal ds := by
  constructor
  · rintro ⟨a, b, c⟩; exact ⟨a, b, by rw [c, digitsVal_ofDigits b]⟩
  · rintro ⟨a, b, c⟩; exact ⟨a, b, by rw [c, digitsVal_ofDigits b]⟩

theorem all_dec_iff {ds : List Char} : ds.all isDec = true ↔ ∀ c ∈ ds, '0' ≤ c ∧ c ≤ '9' := by
  rw [List.all_eq_true]
  exact ⟨fun h c hc => isDec_iff.1 (h c hc), fun h c hc => isDec_iff.2 (h c hc)⟩

/-- The exponent as std reads it: large ones are cut off. -/
def ReadExp (ex : List Char) (e : Int) : Prop :=
  (ex = [] ∧ e = 0) ∨
  ∃ c ds m, (c = 'e' ∨ c = 'E') ∧ (ds ≠ [] ∧ (∀ c ∈ ds, '0' ≤ c ∧ c ≤ '9') ∧ m = expVal ds) ∧
    ((ex = c :: ds ∧ e = m) ∨ (ex = c :: '+' :: ds ∧ e = m) ∨ (ex = c :: '-' :: ds ∧ e = -(m : Int)))

theorem parseExp_iff (l : List Char) (e : Int) : parseExp l = some e ↔ ReadExp l e := by
  have key : ∀ (ds : List Char) (x : Int), (if ds ≠ [] ∧ ds.all isDec = true then some x else none) = some e ↔
      (ds ≠ [] ∧ (∀ c ∈ ds, '0' ≤ c ∧ c ≤ '9')) ∧ e = x := by
    intro ds x
    rw [← all_dec_iff]
    split
    · rename_i h; simp only [Option.some.injEq]; exact ⟨fun h' => ⟨h, h'.symm⟩, fun h' => h'.2.symm⟩
    · rename_i h; exact ⟨fun h' => (by cases h'), fun h' => absurd h'.1 h⟩
  unfold ReadExp
  cases l with
  | nil => simp only [parseExp, Option.some.injEq, true_and]
           constructor
           · intro h; exact Or.inl h.symm
           · rintro (h | ⟨c, ds, m, -, -, ⟨h, -⟩ | ⟨h, -⟩ | ⟨h, -⟩⟩)
             · exact h.symm
             all_goals cases h
  | cons c r =>
    simp only [parseExp]
    by_cases hc : c = 'e' ∨ c = 'E'
    · rw [if_pos hc]
      constructor
      · intro h
        right
        split at h
        · rename_i ds
          obtain ⟨⟨h1, h2⟩, h3⟩ := (key _ _).1 h
          exact ⟨c, ds, _, hc, ⟨h1, h2, rfl⟩, Or.inr (Or.inr ⟨rfl, h3⟩)⟩
        · rename_i ds
          obtain ⟨⟨h1, h2⟩, h3⟩ := (key _ _).1 h
          exact ⟨c, ds, _, hc, ⟨h1, h2, rfl⟩, Or.inr (Or.inl ⟨rfl, h3⟩)⟩
        · obtain ⟨⟨h1, h2⟩, h3⟩ := (key _ _).1 h
          exact ⟨c, r, _, hc, ⟨h1, h2, rfl⟩, Or.inl ⟨rfl, h3⟩⟩
      · rintro (⟨h, -⟩ | ⟨c', ds, m, -, hds, h⟩)
        · cases h
        · obtain ⟨h1, h2, rfl⟩ := hds
          rcases h with ⟨h, rfl⟩ | ⟨h, rfl⟩ | ⟨h, rfl⟩
          · cases h
            split
            · rename_i ds'; exact absurd (h2 '-' (by simp)) minus_not_digit
            · rename_i ds'; exact absurd (h2 '+' (by simp)) plus_not_digit
            · exact (key _ _).2 ⟨⟨h1, h2⟩, rfl⟩
          · cases h
            exact (key _ _).2 ⟨⟨h1, h2⟩, rfl⟩
          · cases h
            exact (key _ _).2 ⟨⟨h1, h2⟩, rfl⟩
    · rw [if_neg hc]
      constructor
      · intro h; cases h
      · rintro (⟨h, -⟩ | ⟨c', ds, m, hc', -, ⟨h, -⟩ | ⟨h, -⟩ | ⟨h, -⟩⟩)
        · cases h
        all_goals cases h; exact absurd hc' hc

/-- The grammar of `Numeral`, with the digits and the power of ten kept apart. -/
def Decimal (body : List Char) (d : Nat) (k : Int) : Prop :=
  ∃ ip fp ex e, DigitsSpell (ip ++ fp) d ∧ Exponent ex e ∧ ((fp = [] ∧ body = ip ++ ex) ∨ body = ip ++ '.' :: fp ++ ex) ∧ k = e - fp.length

/-- A numeral as std reads it: the exponent may be cut off. -/
def DecimalRead (body : List Char) (d : Nat) (k : Int) : Prop :=
  ∃ ip fp ex e, DigitsSpell (ip ++ fp) d ∧ ReadExp ex e ∧ ((fp = [] ∧ body = ip ++ ex) ∨ body = ip ++ '.' :: fp ++ ex) ∧ k = e - fp.length

theorem exponent_head {ex : List Char} {e : Int} (h : ReadExp ex e) : ∀ c t, ex = c :: t → isDec c = false ∧ c ≠ '.' := by
  rintro c t rfl
  have he : isDec 'e' = false := by decide
  have hE : isDec 'E' = false := by decide
  rcases h with ⟨h, -⟩ | ⟨c', ds, m, hc, -, ⟨h, -⟩ | ⟨h, -⟩ | ⟨h, -⟩⟩
  · cases h
  all_goals
    cases h
    rcases hc with rfl | rfl
    · exact ⟨he, by decide⟩
    · exact ⟨hE, by decide⟩

theorem mem_takeWhile {α : Type} {p : α → Bool} {l : List α} {c : α} (h : c ∈ l.takeWhile p) : p c = true := by
  induction l with
  | nil => cases h
  | cons a l ih =>
    rw [List.takeWhile_cons] at h
    split at h
    · rename_i ha
      rcases List.mem_cons.1 h with rfl | h
      · exact ha
      · exact ih h
    · cases h

theorem parseDecimal_iff (l : List Char) (d : Nat) (k : Int) : parseDecimal l = some (d, k) ↔ DecimalRead l d k := by
  constructor
  · intro h
    have hl : l.takeWhile isDec ++ l.dropWhile isDec = l := List.takeWhile_append_dropWhile
    have hip : ∀ c ∈ l.takeWhile isDec, '0' ≤ c ∧ c ≤ '9' := fun c hc => isDec_iff.1 (mem_takeWhile hc)
    unfold parseDecimal at h
    simp only at h
    split at h
    · rename_i r hr
      have hfp : ∀ c ∈ r.takeWhile isDec, '0' ≤ c ∧ c ≤ '9' := fun c hc => isDec_iff.1 (mem_takeWhile hc)
      split at h
      · cases h
      · rename_i hne
        rw [Option.map_eq_some_iff] at h
        obtain ⟨e, he, h⟩ := h
        simp only [Prod.mk.injEq] at h
        obtain ⟨rfl, rfl⟩ := h
        refine ⟨_, _, _, e, digitsSpell_val.2 ⟨?_, ?_, rfl⟩, (parseExp_iff _ _).1 he, Or.inr ?_, rfl⟩
        · simpa [not_and_or] using hne
        · intro c hc
          rcases List.mem_append.1 hc with hc | hc
          · exact hip c hc
          · exact hfp c hc
        · conv_lhs => rw [← hl, hr]
          rw [List.append_assoc, List.cons_append, List.takeWhile_append_dropWhile]
    · split at h
      · cases h
      · rename_i hne
        rw [Option.map_eq_some_iff] at h
        obtain ⟨e, he, h⟩ := h
        simp only [Prod.mk.injEq] at h
        obtain ⟨rfl, rfl⟩ := h
        refine ⟨l.takeWhile isDec, [], _, e, digitsSpell_val.2 ⟨by simpa using hne, by simpa using hip, by simp⟩, (parseExp_iff _ _).1 he,
          Or.inl ⟨rfl, hl.symm⟩, by simp⟩
  · rintro ⟨ip, fp, ex, e, hd, hex, hb, rfl⟩
    obtain ⟨h1, h2, rfl⟩ := digitsSpell_val.1 hd
    have hip : ∀ c ∈ ip, isDec c = true := fun c hc => isDec_iff.2 (h2 c (by simp [hc]))
    have hfp : ∀ c ∈ fp, isDec c = true := fun c hc => isDec_iff.2 (h2 c (by simp [hc]))
    unfold parseDecimal
    rcases hb with ⟨rfl, rfl⟩ | rfl
    · obtain ⟨t1, t2⟩ := takeWhile_all hip ex (fun c t h => (exponent_head hex c t h).1)
      simp only [t1, t2]
      have hne : ip ≠ [] := by simpa using h1
      split
      · exact absurd rfl (exponent_head hex _ _ rfl).2
      · rw [if_neg hne, (parseExp_iff _ _).2 hex]; simp
    · rw [List.append_assoc, List.cons_append]
      obtain ⟨t1, t2⟩ := takeWhile_all hip ('.' :: (fp ++ ex)) (by rintro c t h; cases h; decide)
      obtain ⟨t3, t4⟩ := takeWhile_all hfp ex (fun c t h => (exponent_head hex c t h).1)
      simp only [t1, t2, t3, t4]
      rw [if_neg (by simpa [not_and_or] using h1), (parseExp_iff _ _).2 hex]; rfl

theorem numeral_iff {l : List Char} {q : ℚ} : Numeral l q ↔ ∃ d k, Decimal l d k ∧ q = d * (10 : ℚ) ^ k := by
  constructor
  · rintro ⟨ip, fp, ex, n, e, h1, h2, h3, rfl⟩; exact ⟨n, _, ⟨ip, fp, ex, e, h1, h2, h3, rfl⟩, rfl⟩
  · rintro ⟨d, k, ⟨ip, fp, ex, e, h1, h2, h3, rfl⟩, rfl⟩; exact ⟨ip, fp, ex, d, e, h1, h2, h3, rfl⟩

theorem ten_zpow_split (d : Nat) (k : Int) : (d : ℚ) * (10 : ℚ) ^ k = ((d * 10 ^ k.toNat : Nat) : ℚ) / ((10 ^ (-k).toNat : Nat) : ℚ) := by
  rcases le_total 0 k with h | h
  · have h1 : (-k).toNat = 0 := by omega
    have h2 : k = (k.toNat : Int) := by omega
    rw [h1]; conv_lhs => rw [h2]
    rw [zpow_natCast]; push_cast; simp
  · have h1 : k.toNat = 0 := by omega
    have h2 : k = -((-k).toNat : Int) := by omega
    rw [h1]; conv_lhs => rw [h2]
    rw [zpow_neg, zpow_natCast]; push_cast; simp [div_eq_mul_inv]

/-- Rounding overflows exactly from half a step above the largest finite datum. -/
theorem round_inf_iff (f : Fmt) (hf : f.Ok) (neg : Bool) (num den : Nat) (hd : 0 < den) :
    (f.round neg num den = .inf neg ↔ Spec.Fmt.tooBig f ≤ (num:ℚ) / den) ∧ (∀ s, f.round neg num den = .inf s → s = neg) := by
  have hp := hf.hp
  have h2p : (4:ℚ) ≤ (2:ℚ) ^ f.p := by
    calc (4:ℚ) = 2 ^ 2 := by norm_num
      _ ≤ 2 ^ f.p := pow_le_pow_right₀ (by norm_num) hp
  have hpos : (0:ℚ) < (2:ℚ) ^ f.emax := by positivity
  have hbig : 0 < Spec.Fmt.tooBig f := by unfold Spec.Fmt.tooBig; apply mul_pos <;> linarith
  by_cases hn : num = 0
  · subst hn
    simp [Fmt.round, hbig]
  · have hnp : 0 < num := by omega
    have hdq : (0:ℚ) < den := by exact_mod_cast hd
    obtain ⟨b1, b2⟩ := rman_bounds f hf num den hnp hd
    obtain ⟨f1, f2⟩ := rman_facts f num den hnp hd
    obtain ⟨s1, s2⟩ := divHalfEven_spec (num * 2 ^ (-(f.rexp num den)).toNat) (den * 2 ^ (f.rexp num den).toNat) (by positivity)
    rw [scaled_frac num den hd] at s1 s2
    change |_ - (f.rman num den : ℚ)| ≤ 1 / 2 at s1
    change |_ - (f.rman num den : ℚ)| = 1 / 2 → f.rman num den % 2 = 0 at s2
    have hx0 : (0:ℚ) < (2:ℚ) ^ (f.rexp num den) := by positivity
    have hxe : (num:ℚ) / den = (num:ℚ) / den / (2:ℚ) ^ (f.rexp num den) * (2:ℚ) ^ (f.rexp num den) := by field_simp
    have emn : f.emin ≤ f.rexp num den := by unfold Fmt.rexp; omega
    have hemax := hf.he
    generalize hX : f.rexp num den = X at *
    generalize hM : f.rman num den = M at *
    generalize hT : (num:ℚ) / den / (2:ℚ) ^ X = T at *
    -- when the exponent is too big
    have big : f.emax < X → Spec.Fmt.tooBig f ≤ (num:ℚ) / den := by
      intro h
      have h1 := f2 (by omega)
      rw [hxe]
      have h3 : (2:ℚ) ^ (f.emax + 1) ≤ (2:ℚ) ^ X := zpow_le_zpow_right₀ (by norm_num) (by omega)
      have h4 : (2:ℚ) ^ ((f.p:Int) - 1) * (2:ℚ) ^ (f.emax + 1) = (2:ℚ) ^ f.p * (2:ℚ) ^ f.emax := by
        rw [← zpow_add₀ (by norm_num), ← zpow_natCast (2:ℚ) f.p, ← zpow_add₀ (by norm_num)]; congr 1; ring
      have h5 : (0:ℚ) < (2:ℚ) ^ ((f.p:Int) - 1) := by positivity
      calc Spec.Fmt.tooBig f ≤ (2:ℚ) ^ f.p * (2:ℚ) ^ f.emax := by unfold Spec.Fmt.tooBig; nlinarith
        _ = (2:ℚ) ^ ((f.p:Int) - 1) * (2:ℚ) ^ (f.emax + 1) := h4.symm
        _ ≤ T * (2:ℚ) ^ X := mul_le_mul h1 h3 (by positivity) (by linarith)
    have tie : X = f.emax → (M = 2 ^ f.p ↔ Spec.Fmt.tooBig f ≤ (num:ℚ) / den) := by
      intro h
      rw [hxe, h]
      unfold Spec.Fmt.tooBig
      rw [mul_le_mul_iff_left₀ hpos]
      constructor
      · intro hm
        have hm' : (M:ℚ) = (2:ℚ) ^ f.p := by rw [hm]; push_cast; rfl
        rw [hm'] at s1
        have := (abs_le.1 s1).1
        linarith
      · intro hge
        by_contra hne
        have hlt : M + 1 ≤ 2 ^ f.p := by omega
        have hlt' : (M:ℚ) + 1 ≤ (2:ℚ) ^ f.p := by exact_mod_cast hlt
        have h1 := (abs_le.1 s1).2
        have h2 : T - (M:ℚ) = 1 / 2 := by linarith
        have h3 : (M:ℚ) + 1 = (2:ℚ) ^ f.p := by linarith
        have h4 : M + 1 = 2 ^ f.p := by exact_mod_cast h3
        have h5 := s2 (by rw [h2, abs_of_pos (by norm_num)])
        have h6 : 2 ^ f.p = 2 * 2 ^ (f.p - 1) := by rw [← Nat.pow_succ']; congr 1; omega
        omega
    have small : X < f.emax → (num:ℚ) / den < Spec.Fmt.tooBig f := by
      intro h
      rw [hxe]
      have h3 : (2:ℚ) ^ X ≤ (2:ℚ) ^ (f.emax - 1) := zpow_le_zpow_right₀ (by norm_num) (by omega)
      have h4 : (2:ℚ) ^ (f.emax - 1) = (2:ℚ) ^ f.emax / 2 := by rw [zpow_sub₀ (by norm_num)]; norm_num
      have hT0 : 0 < T := by rw [← hT]; positivity
      calc T * (2:ℚ) ^ X ≤ (2:ℚ) ^ f.p * (2:ℚ) ^ (f.emax - 1) := mul_le_mul (le_of_lt f1) h3 (le_of_lt hx0) (by linarith)
        _ < Spec.Fmt.tooBig f := by unfold Spec.Fmt.tooBig; rw [h4]; nlinarith
    rw [round_eq f neg num den hn, hX, hM]
    constructor
    · by_cases hm : M = 2 ^ f.p
      · rw [if_pos hm]
        rcases lt_trichotomy X f.emax with h | h | h
        · rw [if_neg (by omega)]
          exact ⟨fun h' => (by cases h'), fun h' => absurd (small h) (by linarith)⟩
        · rw [if_pos (by omega)]; exact ⟨fun _ => (tie h).1 hm, fun _ => rfl⟩
        · rw [if_pos (by omega)]; exact ⟨fun _ => big h, fun _ => rfl⟩
      · rw [if_neg hm]
        rcases lt_trichotomy X f.emax with h | h | h
        · rw [if_neg (by omega)]
          exact ⟨fun h' => (by cases h'), fun h' => absurd (small h) (by linarith)⟩
        · rw [if_neg (by omega)]
          exact ⟨fun h' => (by cases h'), fun h' => absurd ((tie h).2 h') hm⟩
        · rw [if_pos (by omega)]; exact ⟨fun _ => big h, fun _ => rfl⟩
    · intro s hs
      split at hs <;> split at hs <;> cases hs <;> rfl

/-- The rounding function meets the specification. -/
theorem round_rounds (f : Fmt) (hf : f.Ok) (hp3 : 2 < f.p) (neg : Bool) (num den : Nat) (hd : 0 < den) :
    Rounds f neg ((num:ℚ) / den) (f.round neg num den) := by
  obtain ⟨h1, h2⟩ := round_inf_iff f hf neg num den hd
  by_cases hb : Spec.Fmt.tooBig f ≤ (num:ℚ) / den
  · exact Or.inr ⟨hb, h1.2 hb⟩
  · have hfin : ∀ s, f.round neg num den ≠ .inf s := by
      intro s hs
      have := h2 s hs; subst this
      exact hb (h1.1 hs)
    refine Or.inl ⟨by linarith, ?_, ?_⟩
    · by_cases hn : num = 0
      · subst hn; exact ⟨0, f.emin, by simp [Fmt.round]⟩
      · cases hr : f.round neg num den with
        | nan =>
          rw [round_eq f neg num den hn] at hr
          split at hr <;> split at hr <;> simp at hr
        | inf s => exact absurd hr (hfin s)
        | fin s m e => obtain ⟨rfl, -⟩ := round_val f hf neg num den hn hr; exact ⟨m, e, rfl⟩
    · exact round_correct f hf hp3 neg num den hd hfin

theorem asciiLower_eq {c d : Char} (hd : 'a' ≤ d ∧ d ≤ 'z') : asciiLower c = d ↔ (c = d ∨ c.toNat + 32 = d.toNat) := by
  have h97 : 97 ≤ d.toNat := by have := hd.1; rw [Char.le_def, UInt32.le_iff_toNat_le] at this; exact this
  have h122 : d.toNat ≤ 122 := by have := hd.2; rw [Char.le_def, UInt32.le_iff_toNat_le] at this; exact this
  have inj : ∀ {a b : Char}, a.toNat = b.toNat → a = b := fun h => Char.toNat_inj.1 h
  unfold asciiLower
  split
  · rename_i hc
    have e : (Char.ofNat (c.toNat + 32)).toNat = c.toNat + 32 := toNat_ofNat_valid (by left; omega)
    constructor
    · rintro rfl; right; rw [e]
    · rintro (rfl | h')
      · omega
      · exact inj (by rw [e, h'])
  · rename_i hc
    constructor
    · rintro rfl; left; rfl
    · rintro (rfl | h')
      · rfl
      · omega

theorem asciiLower_list (w : List Char) (hw : ∀ d ∈ w, 'a' ≤ d ∧ d ≤ 'z') (l : List Char) :
    l.map asciiLower = w ↔ l.length = w.length ∧ ∀ (i : Nat) c d, l[i]? = some c → w[i]? = some d →
      (c = d ∨ (c.toNat + 32 = d.toNat ∧ 'a' ≤ d ∧ d ≤ 'z')) := by
  induction w generalizing l with
  | nil =>
    cases l with
    | nil => simp
    | cons c l => simp
  | cons d w ih =>
    have hd := hw d List.mem_cons_self
    have ih := ih (fun x hx => hw x (List.mem_cons_of_mem _ hx))
    cases l with
    | nil => simp
    | cons c l =>
      rw [List.map_cons, List.cons.injEq, asciiLower_eq hd, ih]
      constructor
      · rintro ⟨h0, h1, h2⟩
        refine ⟨by simp [h1], fun i a b ha hb => ?_⟩
        cases i with
        | zero =>
          simp only [List.getElem?_cons_zero, Option.some.injEq] at ha hb
          subst ha hb
          exact h0.imp id fun h => ⟨h, hd⟩
        | succ i => exact h2 i a b (by simpa using ha) (by simpa using hb)
      · rintro ⟨h1, h2⟩
        refine ⟨(h2 0 c d rfl rfl).imp id And.left, by simpa using h1,
          fun i a b ha hb => h2 (i + 1) a b (by simpa using ha) (by simpa using hb)⟩

theorem asciiLower_word (body : List Char) (w : String) (hw : ∀ d ∈ w.toList, 'a' ≤ d ∧ d ≤ 'z') :
    String.ofList (body.map asciiLower) = w ↔ EqIgnoreAsciiCase (String.ofList body) w := by
  unfold EqIgnoreAsciiCase
  rw [String.toList_ofList, ← asciiLower_list w.toList hw]
  constructor
  · intro h; rw [← h, String.toList_ofList]
  · intro h; rw [h, String.ofList_toList]

end Verif
