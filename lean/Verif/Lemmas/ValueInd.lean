import Verif.Model.Value
/-! Structural induction on values, with membership hypotheses for containers. -/
namespace Verif

theorem Value.ind {P : Value → Prop}
    (none : P .none) (boolean : ∀ b, P (.boolean b)) (integer : ∀ n, P (.integer n))
    (longInteger : ∀ n, P (.longInteger n)) (uInteger : ∀ n, P (.uInteger n))
    (uLongInteger : ∀ n, P (.uLongInteger n)) (float : ∀ x, P (.float x)) (string : ∀ s, P (.string s))
    (array : ∀ xs, (∀ x ∈ xs, P x) → P (.array xs))
    (map : ∀ m, (∀ e ∈ m, P (Prod.snd e)) → P (.map m)) : ∀ v, P v :=
  Value.rec (motive_1 := P) (motive_2 := fun xs => ∀ x ∈ xs, P x) (motive_3 := fun m => ∀ e ∈ m, P (Prod.snd e))
    (motive_4 := fun e => P e.2)
    none boolean integer longInteger uInteger uLongInteger float string array map
    (by simp) (by intro x xs hx hxs y hy; rcases List.mem_cons.1 hy with rfl | hy; exacts [hx, hxs y hy])
    (by simp) (by intro x xs hx hxs y hy; rcases List.mem_cons.1 hy with rfl | hy; exacts [hx, hxs y hy])
    (by intro k v h; exact h)

end Verif
