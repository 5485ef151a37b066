import Verif.Spec.Order
import Verif.Props.Config
/-!
# C111–C113: the order of layers, what a layer can change, and when it can be left out
-/
namespace Verif.Props
open Spec

/-! ## Two overlays -/

theorem not_silent_below (q : List String) : ∀ (u : Value) (h : Head), view u (keys q) = some h → h ≠ .map →
    ∀ r, ¬ Silent u (keys q ++ r) := by
  induction q with
  | nil =>
    intro u h hq hne r
    rw [show keys [] = [] from rfl, view_nil, Option.some.injEq] at hq
    refine not_silent_nonmap ?_ r
    cases hm : u.isMap with
    | false => rfl
    | true => exact absurd (hq ▸ head_map_iff.2 hm) hne
  | cons k q ih =>
    intro u h hq hne r
    rw [keys_cons] at hq ⊢
    rcases isMap_cases u with ⟨m, rfl⟩ | hu
    · rw [List.cons_append, silent_key_map]
      rw [view_key_map] at hq
      cases hg : hmGet m k with
      | none => rw [hg] at hq; cases hq
      | some w => rw [hg] at hq; exact ih w h hq hne r
    · exact not_silent_nonmap hu _

theorem not_silent_at {u : Value} {p : Path} {h : Head} (hp : view u p = some h) : ¬ Silent u p := by
  intro hs; rw [view_of_silent hs] at hp; cases hp

/-- Two values concur exactly if they show the same wherever both have something to say. -/
theorem concur_iff (u v : Value) : Concur u v ↔ ∀ p, ¬ Silent u p → ¬ Silent v p → view u p = view v p := by
  constructor
  · intro hc p
    induction p generalizing u v with
    | nil =>
      intro _ _
      rcases hc [] (head u) (head v) rfl rfl with ⟨h1, h2⟩ | h
      · rw [view_nil, view_nil, h1, h2]
      · exact h []
    | cons s p ih =>
      intro hu hv
      by_cases hm : u.isMap = true ∧ v.isMap = true
      · obtain ⟨mu, rfl⟩ := (isMap_cases u).resolve_right (by simp [hm.1])
        obtain ⟨mv, rfl⟩ := (isMap_cases v).resolve_right (by simp [hm.2])
        cases s with
        | idx i => rfl
        | key k =>
          rw [silent_key_map] at hu hv
          rw [view_key_map, view_key_map]
          cases hgu : hmGet mu k with
          | none => rw [hgu] at hu; exact absurd trivial hu
          | some x =>
            cases hgv : hmGet mv k with
            | none => rw [hgv] at hv; exact absurd trivial hv
            | some y =>
              rw [hgu] at hu; rw [hgv] at hv
              refine ih x y ?_ hu hv
              intro q h h' h1 h2
              have e1 : ∀ r, view (.map mu) (keys (k :: q) ++ r) = view x (keys q ++ r) := fun r => by
                rw [keys_cons, List.cons_append, view_key_map, hgu]; rfl
              have e2 : ∀ r, view (.map mv) (keys (k :: q) ++ r) = view y (keys q ++ r) := fun r => by
                rw [keys_cons, List.cons_append, view_key_map, hgv]; rfl
              have f1 := e1 []; have f2 := e2 []
              simp only [List.append_nil] at f1 f2
              rcases hc (k :: q) h h' (f1.trans h1) (f2.trans h2) with h3 | h3
              · exact Or.inl h3
              · exact Or.inr fun r => by rw [← e1, ← e2]; exact h3 r
      · rcases hc [] (head u) (head v) rfl rfl with ⟨h1, h2⟩ | h
        · exact absurd ⟨head_map_iff.1 h1, head_map_iff.1 h2⟩ hm
        · exact h _
  · intro hs q h h' h1 h2
    by_cases hm : h = .map ∧ h' = .map
    · exact Or.inl hm
    · right
      have he := hs (keys q) (not_silent_at h1) (not_silent_at h2)
      rw [h1, h2, Option.some.injEq] at he
      subst he
      have hne : h ≠ .map := fun e => hm ⟨e, e⟩
      exact fun r => hs _ (not_silent_below q u h h1 hne r) (not_silent_below q v h h2 hne r)

/-- **C111.** Two maps may be merged into every map in either order, without a difference, exactly if they concur. -/
theorem C111_two (u v : Value) (hu : u.isMap = true) (hv : v.isMap = true) (huu : UniqueKeys u) (huv : UniqueKeys v) :
    (∀ a, a.isMap = true → UniqueKeys a → Same ((a.merge u).merge v) ((a.merge v).merge u)) ↔ Concur u v := by
  rw [concur_iff]
  constructor
  · intro h p hsu hsv
    have := h (.map []) rfl (uniqueKeys_map.2 ⟨List.nodup_nil, by simp⟩) p
    rw [(view_merge' (by rw [isMap_merge]; rfl) hv huv p).2 hsv, (view_merge' (by rw [isMap_merge]; rfl) hu huu p).2 hsu] at this
    exact this.symm
  · intro h a ha _ p
    have hau : (a.merge u).isMap = true := by rw [isMap_merge]; exact ha
    have hav : (a.merge v).isMap = true := by rw [isMap_merge]; exact ha
    by_cases hsu : Silent u p <;> by_cases hsv : Silent v p
    · rw [(view_merge' hau hv huv p).1 hsv, (view_merge' ha hu huu p).1 hsu,
        (view_merge' hav hu huu p).1 hsu, (view_merge' ha hv huv p).1 hsv]
    · rw [(view_merge' hau hv huv p).2 hsv, (view_merge' hav hu huu p).1 hsu, (view_merge' ha hv huv p).2 hsv]
    · rw [(view_merge' hau hv huv p).1 hsv, (view_merge' ha hu huu p).2 hsu, (view_merge' hav hu huu p).2 hsu]
    · rw [(view_merge' hau hv huv p).2 hsv, (view_merge' hav hu huu p).2 hsu, h p hsu hsv]

/-! ## Any number of layers, any other order -/

theorem build_either {w : World} {ls : List (String × Layer)} (hp : ∀ e ∈ ls, Proper e.2) (p : Path) :
    ((∀ e ∈ ls, ¬ Speaks w e.2 p) ∧ view ((readables w ls).foldl Value.merge Value.newMap) p = view Value.newMap p) ∨
    ∃ e ∈ ls, ∃ x, e.2.readValue w = .ok x ∧ x.isMap = true ∧ ¬ Silent x p ∧
      view ((readables w ls).foldl Value.merge Value.newMap) p = view x p := by
  rcases C07_cases w ls p with h | ⟨before, e, after, x, hls, hx, hm, hs, hlast⟩
  · exact Or.inl ⟨h, (build_speaks hp p).2 h⟩
  · exact Or.inr ⟨e, by rw [hls]; simp, x, hx, hm, hs, (build_speaks hp p).1 before e after x hls hx hm hs hlast⟩

/-- **C111.** Two configurations that hold the same layers in different orders: at every path about which no two layers say different
things, the built values show the same. -/
theorem C111_path (b : Build) (fm : Formats) (calls calls' : List RegCall) (w : World) (skip : Bool) (v v' : Value)
    (hperm : (firsts (offers b fm calls)).Perm (firsts (offers b fm calls')))
    (hp : ∀ e ∈ firsts (offers b fm calls), Proper e.2)
    (h : (register b fm calls).buildValue w skip = .ok v) (h' : (register b fm calls').buildValue w skip = .ok v') (p : Path)
    (hsay : ∀ e ∈ firsts (offers b fm calls), ∀ e' ∈ firsts (offers b fm calls), ∀ x x', e.2.readValue w = .ok x →
      e'.2.readValue w = .ok x' → x.isMap = true → x'.isMap = true → ¬ Silent x p → ¬ Silent x' p → view x p = view x' p) :
    view v p = view v' p := by
  have hp' : ∀ e ∈ firsts (offers b fm calls'), Proper e.2 := fun e he => hp e (hperm.mem_iff.2 he)
  rw [build_ok h, build_ok h']
  rcases build_either (w := w) hp p with ⟨h1, h2⟩ | ⟨e, he, x, hx, hm, hs, h2⟩ <;>
    rcases build_either (w := w) hp' p with ⟨h3, h4⟩ | ⟨e', he', x', hx', hm', hs', h4⟩
  · rw [h2, h4]
  · exact absurd ⟨x', hx', hm', hs'⟩ (h1 e' (hperm.mem_iff.2 he'))
  · exact absurd ⟨x, hx, hm, hs⟩ (h3 e (hperm.mem_iff.1 he))
  · rw [h2, h4]; exact hsay e he e' (hperm.mem_iff.2 he') x x' hx hx' hm hm' hs hs'

/-- **C111.** Whether the build succeeds does not depend on the order of the layers (the error may). -/
theorem C111_succeeds (b : Build) (fm : Formats) (calls calls' : List RegCall) (w : World) (skip : Bool)
    (hperm : (firsts (offers b fm calls)).Perm (firsts (offers b fm calls'))) :
    (∃ v, (register b fm calls).buildValue w skip = .ok v) ↔ ∃ v, (register b fm calls').buildValue w skip = .ok v := by
  rw [buildValue_is (is_register b fm calls), buildValue_is (is_register b fm calls')]
  cases skip with
  | true => simp only [buildList_true]; exact ⟨fun _ => ⟨_, rfl⟩, fun _ => ⟨_, rfl⟩⟩
  | false =>
    have key : ∀ ls, (∃ v, buildList w false Value.newMap ls = .ok v) ↔ ∀ e ∈ ls, ∃ x, e.2.readValue w = .ok x := fun ls =>
      ⟨fun ⟨v, hv⟩ => (((buildList_false w ls _).1 v).1 hv).1, fun hr => ⟨_, ((buildList_false w ls _).1 _).2 ⟨hr, rfl⟩⟩⟩
    rw [key, key]
    exact ⟨fun hr e he => hr e (hperm.mem_iff.2 he), fun hr e he => hr e (hperm.mem_iff.1 he)⟩

/-- **C111.** If any two of the maps that the layers yield concur, the order of the layers makes no difference at all. -/
theorem C111_order (b : Build) (fm : Formats) (calls calls' : List RegCall) (w : World) (skip : Bool) (v : Value)
    (hperm : (firsts (offers b fm calls)).Perm (firsts (offers b fm calls')))
    (hp : ∀ e ∈ firsts (offers b fm calls), Proper e.2)
    (hc : ∀ e ∈ firsts (offers b fm calls), ∀ e' ∈ firsts (offers b fm calls), ∀ x x', e.2.readValue w = .ok x →
      e'.2.readValue w = .ok x' → x.isMap = true → x'.isMap = true → Concur x x')
    (h : (register b fm calls).buildValue w skip = .ok v) :
    ∃ v', (register b fm calls').buildValue w skip = .ok v' ∧ Same v v' := by
  obtain ⟨v', h'⟩ := (C111_succeeds b fm calls calls' w skip hperm).1 ⟨v, h⟩
  refine ⟨v', h', fun p => C111_path b fm calls calls' w skip v v' hperm hp h h' p ?_⟩
  intro e he e' he' x x' hx hx' hm hm' hs hs'
  exact (concur_iff x x').1 (hc e he e' he' x x' hx hx' hm hm') p hs hs'

/-! ## C112: what one more layer can achieve -/

/-- **C112.** A map `a` can be turned into `t` by merging some map into it exactly if `t` drops no entry from a map of `a` that is still
a map in `t`; and then merging `t` itself does it. -/
theorem C112_reach (a t : Value) (ha : a.isMap = true) (ht : t.isMap = true) (hut : UniqueKeys t) :
    ((∃ o, o.isMap = true ∧ UniqueKeys o ∧ Same (a.merge o) t) ↔ DropsNothing a t) ∧
    (DropsNothing a t → Same (a.merge t) t) := by
  have back : DropsNothing a t → Same (a.merge t) t := by
    intro hd p
    by_cases hs : Silent t p
    · rw [(view_merge' ha ht hut p).1 hs, view_of_silent hs]
      obtain ⟨q, k, r, rfl, hq, hk⟩ := hs
      -- all of `q` is keys, because `t` is a map all along
      have hqk : ∃ q' : List String, q = keys q' := by
        clear hk hd
        induction q using List.reverseRecOn with
        | nil => exact ⟨[], rfl⟩
        | append_singleton q s ih =>
          obtain ⟨q', rfl⟩ := ih fun q'' h'' => hq q'' (h''.trans (List.prefix_append _ _))
          have h1 := hq _ (List.prefix_append (keys q') [s])
          have h2 := hq _ (List.prefix_refl _)
          cases s with
          | key k => exact ⟨q' ++ [k], by simp [keys]⟩
          | idx i =>
            exfalso
            have : ∀ (q' : List String) (t : Value), view t (keys q') = some .map → view t (keys q' ++ [Step.idx i]) = none := by
              intro q'
              induction q' with
              | nil =>
                intro t h
                have : t.isMap = true := head_map_iff.1 (Option.some.inj h)
                obtain ⟨m, rfl⟩ := (isMap_cases t).resolve_right (by simp [this])
                rfl
              | cons k q' ih =>
                intro t h
                rw [keys_cons] at h ⊢
                rw [view_cons] at h
                rw [List.cons_append, view_cons]
                cases hc : child t (.key k) with
                | none => rfl
                | some w => rw [hc] at h; exact ih w h
            rw [this q' t h1] at h2; cases h2
      obtain ⟨q', rfl⟩ := hqk
      have ek : keys (q' ++ [k]) = keys q' ++ [Step.key k] := by simp [keys]
      have hna : view a (keys q' ++ [Step.key k]) = none := by
        refine Classical.byContradiction fun hn => ?_
        have hma : view a (keys q') = some .map := by
          cases hv : view a (keys q') with
          | none => exact absurd (view_none_append hv _) hn
          | some h =>
            refine congrArg some (Classical.byContradiction fun hne => hn ?_)
            have : ∀ (q' : List String) (a : Value) (h : Head), view a (keys q') = some h → h ≠ .map →
                view a (keys q' ++ [Step.key k]) = none := by
              intro q'
              induction q' with
              | nil =>
                intro a h hv hne
                rw [show keys [] = [] from rfl, view_nil, Option.some.injEq] at hv
                have : a.isMap = false := by
                  cases hm : a.isMap with
                  | false => rfl
                  | true => exact absurd (hv ▸ head_map_iff.2 hm) hne
                show (child a (.key k)).bind _ = _
                rw [child_key_nonmap this]; rfl
              | cons j q' ih =>
                intro a h hv hne
                rw [keys_cons] at hv ⊢
                rw [view_cons] at hv
                rw [List.cons_append, view_cons]
                cases hc : child a (.key j) with
                | none => rfl
                | some w => rw [hc] at hv; exact ih w h hv hne
            exact this q' a h hv hne
        exact hd q' k hma (hq _ (List.prefix_refl _)) (by rw [ek]; exact hn) (by rw [ek]; exact hk)
      rw [show keys q' ++ Step.key k :: r = (keys q' ++ [Step.key k]) ++ r by simp]
      exact view_none_append hna r
    · exact (view_merge' ha ht hut p).2 hs
  refine ⟨⟨?_, fun hd => ⟨t, ht, hut, back hd⟩⟩, back⟩
  rintro ⟨o, ho, huo, hs⟩ q k hqa hqt hk
  rw [← hs]
  rw [← hs] at hqt
  by_cases hsil : Silent o (keys q)
  · have : Silent o (keys (q ++ [k])) := by
      rw [show keys (q ++ [k]) = keys q ++ [Step.key k] by simp [keys]]
      exact silent_extend hsil _
    rw [(view_merge' ha ho huo _).1 this]; exact hk
  · rw [(view_merge' ha ho huo _).2 hsil] at hqt
    exact ((C06_key_union a o huo q hqa hqt).2 k).2 (Or.inl hk)

/-- **C112.** So one more layer, under a new name, can make the built value `v` into `t` exactly if `t` drops nothing; a memory layer
with `t` itself does it. -/
theorem C112_build (b : Build) (fm : Formats) (calls : List RegCall) (w : World) (skip : Bool) (v t : Value) (name : String)
    (hnew : ∀ a ∈ offers b fm calls, a.1 ≠ name) (ht : t.isMap = true) (hut : UniqueKeys t)
    (h : (register b fm calls).buildValue w skip = .ok v) :
    ((∃ l v', Proper l ∧ (∃ x, l.readValue w = .ok x ∧ x.isMap = true) ∧
      (register b fm (calls ++ [.layer name l])).buildValue w skip = .ok v' ∧ Same v' t) ↔ DropsNothing v t) ∧
    (DropsNothing v t → ∃ v', (register b fm (calls ++ [.memory name t])).buildValue w skip = .ok v' ∧ Same v' t) := by
  have hv := (C08_map b fm calls w skip v h).1
  obtain ⟨hi, hb⟩ := C112_reach v t hv ht hut
  refine ⟨⟨?_, ?_⟩, ?_⟩
  · rintro ⟨l, v', hp, ⟨x, hx, hxm⟩, h', hs⟩
    have := C14_add_last b fm calls (.layer name l) w skip (name, l) x v rfl hnew hx h
    rw [h', Except.ok.injEq] at this
    subst this
    exact hi.1 ⟨x, hxm, hp w x hx, hs⟩
  · intro hd
    refine ⟨.memory t, v.merge t, ?_, ⟨t, rfl, ht⟩, C14_add_last b fm calls _ w skip (name, .memory t) t v rfl hnew rfl h, hb hd⟩
    intro w' x hx; cases hx; exact hut
  · exact fun hd => ⟨_, C14_add_last b fm calls _ w skip (name, .memory t) t v rfl hnew rfl h, hb hd⟩

/-! ## C113: when a layer can be left out -/

/-- **C113.** Leaving out a layer changes nothing at a path about which it says nothing, or about which a later layer speaks. -/
theorem C113_path (b : Build) (fm : Formats) (calls calls' : List RegCall) (w : World) (skip : Bool) (v v' : Value)
    (before after : List (String × Layer)) (e : String × Layer)
    (hls : firsts (offers b fm calls) = before ++ e :: after) (hls' : firsts (offers b fm calls') = before ++ after)
    (hp : ∀ a ∈ firsts (offers b fm calls), Proper a.2)
    (h : (register b fm calls).buildValue w skip = .ok v) (h' : (register b fm calls').buildValue w skip = .ok v') (p : Path)
    (hno : ¬ Speaks w e.2 p ∨ ∃ a ∈ after, Speaks w a.2 p) :
    view v p = view v' p := by
  rw [hls] at hp
  have hp' : ∀ a ∈ before ++ after, Proper a.2 := fun a ha => hp a (by
    rcases List.mem_append.1 ha with ha | ha <;> simp [ha])
  rw [build_ok h, build_ok h', hls, hls']
  rcases C07_cases w after p with ha | ⟨b1, e1, a1, x, rfl, hx, hm, hs, hlast⟩
  · have he : ¬ Speaks w e.2 p := by
      rcases hno with hno | ⟨a, ha', hsp⟩
      · exact hno
      · exact absurd hsp (ha a ha')
    rcases C07_cases w before p with hb | ⟨b1, e1, a1, x, rfl, hx, hm, hs, hlast⟩
    · rw [(build_speaks hp p).2, (build_speaks hp' p).2]
      · intro a h; rcases List.mem_append.1 h with h | h
        · exact hb a h
        · exact ha a h
      · intro a h; rcases List.mem_append.1 h with h | h
        · exact hb a h
        · rcases List.mem_cons.1 h with rfl | h
          · exact he
          · exact ha a h
    · rw [(build_speaks hp p).1 b1 e1 (a1 ++ e :: after) x (by simp) hx hm hs, (build_speaks hp' p).1 b1 e1 (a1 ++ after) x (by simp) hx hm hs]
      · intro a h; rcases List.mem_append.1 h with h | h
        · exact hlast a h
        · exact ha a h
      · intro a h; rcases List.mem_append.1 h with h | h
        · exact hlast a h
        · rcases List.mem_cons.1 h with rfl | h
          · exact he
          · exact ha a h
  · rw [(build_speaks hp p).1 (before ++ e :: b1) e1 a1 x (by simp) hx hm hs hlast,
      (build_speaks hp' p).1 (before ++ b1) e1 a1 x (by simp) hx hm hs hlast]

/-- **C113.** If the build succeeds with the layer, it does so without it. -/
theorem C113_succeeds (b : Build) (fm : Formats) (calls calls' : List RegCall) (w : World) (skip : Bool) (v : Value)
    (before after : List (String × Layer)) (e : String × Layer)
    (hls : firsts (offers b fm calls) = before ++ e :: after) (hls' : firsts (offers b fm calls') = before ++ after)
    (h : (register b fm calls).buildValue w skip = .ok v) :
    ∃ v', (register b fm calls').buildValue w skip = .ok v' := by
  rw [buildValue_is (is_register b fm _)] at h ⊢
  rw [hls] at h
  rw [hls']
  cases skip with
  | true => rw [buildList_true]; exact ⟨_, rfl⟩
  | false =>
    have hr := (((buildList_false w _ _).1 v).1 h).1
    exact ⟨_, ((buildList_false w _ _).1 _).2 ⟨fun a ha => hr a (by
      rcases List.mem_append.1 ha with ha | ha <;> simp [ha]), rfl⟩⟩

/-- **C113.** Conversely, where a layer is the last to speak, and says something else than the layers before it together, leaving it out
is seen: what is read there is then what those layers build. -/
theorem C113_shows_through (b : Build) (fm : Formats) (calls calls' below : List RegCall) (w : World) (skip : Bool) (v v' u : Value)
    (before after : List (String × Layer)) (e : String × Layer)
    (hls : firsts (offers b fm calls) = before ++ e :: after) (hls' : firsts (offers b fm calls') = before ++ after)
    (hbelow : firsts (offers b fm below) = before)
    (hp : ∀ a ∈ firsts (offers b fm calls), Proper a.2)
    (h : (register b fm calls).buildValue w skip = .ok v) (h' : (register b fm calls').buildValue w skip = .ok v')
    (hu : (register b fm below).buildValue w skip = .ok u) (p : Path)
    (x : Value) (hx : e.2.readValue w = .ok x) (hm : x.isMap = true) (hs : ¬ Silent x p) (hlast : ∀ a ∈ after, ¬ Speaks w a.2 p) :
    view v p = view x p ∧ view v' p = view u p := by
  refine ⟨C07_last_speaker b fm calls w skip v h hp p before e after x hls hx hm hs hlast, ?_⟩
  rw [hls] at hp
  have hp' : ∀ a ∈ before ++ after, Proper a.2 := fun a ha => hp a (by
    rcases List.mem_append.1 ha with ha | ha <;> simp [ha])
  have hpb : ∀ a ∈ before, Proper a.2 := fun a ha => hp a (by simp [ha])
  rw [build_ok hu, build_ok h', hls', hbelow]
  rcases C07_cases w before p with hb | ⟨b1, e1, a1, y, rfl, hy, hym, hys, hyl⟩
  · rw [(build_speaks hpb p).2 hb, (build_speaks hp' p).2]
    intro a h; rcases List.mem_append.1 h with h | h
    · exact hb a h
    · exact hlast a h
  · rw [(build_speaks hpb p).1 b1 e1 a1 y rfl hy hym hys hyl, (build_speaks hp' p).1 b1 e1 (a1 ++ after) y (by simp) hy hym hys]
    intro a h; rcases List.mem_append.1 h with h | h
    · exact hyl a h
    · exact hlast a h

/-! ## Examples -/

/-- Two overlays with a common table and a common entry, otherwise about different things. -/
def exLeft : Value := .map [("ui", .map [("dark", .boolean true)]), ("lang", .string "en")]
def exRight : Value := .map [("lang", .string "en"), ("ui", .map [("size", .string "big")]), ("net", .none)]

theorem exLeft_unique : UniqueKeys exLeft := by simp [exLeft, UniqueKeys, UniqueKeysMap, UniqueKeysEntry]
theorem exRight_unique : UniqueKeys exRight := by simp [exRight, UniqueKeys, UniqueKeysMap, UniqueKeysEntry]

theorem exConcur : Concur exLeft exRight := by
  rw [concur_iff]
  intro p h1 h2
  match p with
  | [] => rfl
  | .idx _ :: _ => rfl
  | .key k :: p =>
    simp only [exLeft, exRight, silent_key_map] at h1 h2
    by_cases hu : "ui" = k
    · subst hu
      match p with
      | [] => rfl
      | .idx _ :: _ => rfl
      | .key j :: p =>
        have h1' : ¬ Silent (.map [("dark", .boolean true)]) (.key j :: p) := h1
        have h2' : ¬ Silent (.map [("size", .string "big")]) (.key j :: p) := h2
        rw [silent_key_map] at h1' h2'
        by_cases hd : "dark" = j
        · subst hd; exact absurd trivial h2'
        · have : hmGet [("dark", Value.boolean true)] j = none := by simp [hmGet, hd]
          rw [this] at h1'; exact absurd trivial h1'
    · by_cases hl : "lang" = k
      · subst hl; cases p with
        | nil => rfl
        | cons s p => cases s <;> rfl
      · have : hmGet [("ui", Value.map [("dark", .boolean true)]), ("lang", .string "en")] k = none := by simp [hmGet, hu, hl]
        rw [this] at h1; exact absurd trivial h1

/-- **C111** at work: the two may be merged in either order. -/
example (a : Value) (ha : a.isMap = true) (hu : UniqueKeys a) :
    Same ((a.merge exLeft).merge exRight) ((a.merge exRight).merge exLeft) :=
  (C111_two exLeft exRight rfl rfl exLeft_unique exRight_unique).2 exConcur a ha hu

/-- An entry that is an empty table in the one and nothing but absent in the other is no conflict, but a table against a scalar is. -/
example : ¬ Concur (.map [("k", .map [])]) (.map [("k", .none)]) := by
  intro h
  rcases h ["k"] .map .none (by decide) (by decide) with h | h
  · exact absurd h.2 (by decide)
  · exact absurd (h []) (by decide)

def exOrder : List RegCall := [.memory "a" exLeft, .memory "b" exRight]
def exOrder' : List RegCall := [.memory "b" exRight, .memory "a" exLeft]

theorem exOrder_perm (w : World) :
    (firsts (offers exB1 exFormats exOrder)).Perm (firsts (offers exB1 exFormats exOrder')) ∧
    (∀ e ∈ firsts (offers exB1 exFormats exOrder), Proper e.2) ∧
    (∀ e ∈ firsts (offers exB1 exFormats exOrder), ∀ e' ∈ firsts (offers exB1 exFormats exOrder), ∀ x x', e.2.readValue w = .ok x →
      e'.2.readValue w = .ok x' → x.isMap = true → x'.isMap = true → Concur x x') := by
  have e1 : firsts (offers exB1 exFormats exOrder) = [("a", .memory exLeft), ("b", .memory exRight)] := by rfl
  have e2 : firsts (offers exB1 exFormats exOrder') = [("b", .memory exRight), ("a", .memory exLeft)] := by rfl
  have self : ∀ x, Concur x x := fun x => (concur_iff x x).2 fun _ _ _ => rfl
  have symm : Concur exRight exLeft := (concur_iff _ _).2 fun p h1 h2 => ((concur_iff _ _).1 exConcur p h2 h1).symm
  rw [e1, e2]
  refine ⟨List.Perm.swap .., ?_, ?_⟩
  · intro e he w v hv
    simp only [List.mem_cons, List.not_mem_nil, or_false] at he
    rcases he with rfl | rfl <;> cases hv
    · exact exLeft_unique
    · exact exRight_unique
  · intro e he e' he' x x' hx hx' _ _
    simp only [List.mem_cons, List.not_mem_nil, or_false] at he he'
    rcases he with rfl | rfl <;> rcases he' with rfl | rfl <;> cases hx <;> cases hx'
    · exact self _
    · exact exConcur
    · exact symm
    · exact self _

/-- **C111** at work, with `build_value`. -/
example (w : World) (skip : Bool) (v : Value) (h : (register exB1 exFormats exOrder).buildValue w skip = .ok v) :
    ∃ v', (register exB1 exFormats exOrder').buildValue w skip = .ok v' ∧ Same v v' :=
  C111_order exB1 exFormats exOrder exOrder' w skip v (exOrder_perm w).1 (exOrder_perm w).2.1 (exOrder_perm w).2.2 h

example (w : World) : ∃ v, (register exB1 exFormats exOrder).buildValue w false = .ok v ∧ view v [.key "ui", .key "dark"] = some (.boolean true) ∧
    view v [.key "ui", .key "size"] = some (.string "big") := ⟨_, rfl, by decide⟩

/-- **C112** at work: no layer on top of `exLeft` can take the language away, or empty the table `ui`; but one can make the table a text. -/
example : ¬ DropsNothing exLeft (.map [("ui", .map [("dark", .boolean true)])]) ∧
    ¬ DropsNothing exLeft (.map [("ui", .map []), ("lang", .string "en")]) := by
  constructor
  · intro h; exact absurd (h [] "lang" rfl rfl (by decide)) (by decide)
  · intro h; exact absurd (h ["ui"] "dark" (by decide) (by decide) (by decide)) (by decide)

theorem exDrops : DropsNothing exLeft (.map [("ui", .string "none"), ("lang", .none), ("new", .none)]) := by
  intro q k h1 h2 h3
  match q with
  | [] =>
    by_cases hu : "ui" = k
    · subst hu; decide
    · by_cases hl : "lang" = k
      · subst hl; decide
      · simp [keys, view, exLeft, child, hu, hl] at h3
  | j :: q =>
    exfalso
    by_cases hu : "ui" = j
    · subst hu; cases q <;> simp [keys, view, child, head] at h2
    · by_cases hl : "lang" = j
      · subst hl; cases q <;> simp [keys, view, child, head] at h2
      · simp [keys, view, exLeft, child, hu, hl] at h1

example : Same (exLeft.merge (.map [("ui", .string "none"), ("lang", .none), ("new", .none)]))
    (.map [("ui", .string "none"), ("lang", .none), ("new", .none)]) :=
  (C112_reach exLeft _ rfl rfl (by simp [UniqueKeys, UniqueKeysMap, UniqueKeysEntry])).2 exDrops

/-- **C113** at work: leaving out the layer `a` does not change the language, which `b` also gives, but its table entry is gone. -/
example (w : World) (v v' : Value) (h : (register exB1 exFormats exOrder).buildValue w false = .ok v)
    (h' : (register exB1 exFormats [.memory "b" exRight]).buildValue w false = .ok v') :
    view v [.key "lang"] = view v' [.key "lang"] := by
  refine C113_path exB1 exFormats exOrder [.memory "b" exRight] w false v v' [] [("b", .memory exRight)] ("a", .memory exLeft) (by rfl) (by rfl)
    (exOrder_perm w).2.1 h h' _ (Or.inr ⟨_, List.mem_singleton.2 rfl, exRight, rfl, rfl, ?_⟩)
  exact not_silent_at (h := .string "en") (by decide)

example (w : World) (v v' u : Value) (h : (register exB1 exFormats exOrder).buildValue w false = .ok v)
    (h' : (register exB1 exFormats [.memory "b" exRight]).buildValue w false = .ok v')
    (hu : (register exB1 exFormats []).buildValue w false = .ok u) :
    view v [.key "ui", .key "dark"] = some (.boolean true) ∧ view v' [.key "ui", .key "dark"] = none := by
  have := C113_shows_through exB1 exFormats exOrder [.memory "b" exRight] [] w false v v' u [] [("b", .memory exRight)] ("a", .memory exLeft)
    (by rfl) (by rfl) (by rfl) (exOrder_perm w).2.1 h h' hu [.key "ui", .key "dark"] exLeft rfl rfl (not_silent_at (h := .boolean true) (by decide)) (by
      intro a ha
      rw [List.mem_singleton.1 ha]
      rintro ⟨x, hx, -, hs⟩
      cases hx
      refine hs ⟨[.key "ui"], "dark", [], rfl, ?_, by decide⟩
      intro q' hq'
      rcases List.prefix_cons_iff.1 hq' with rfl | ⟨t, rfl, h'⟩
      · rfl
      · rw [List.prefix_nil.1 h']; rfl)
  rw [this.1, this.2]
  cases hu
  exact ⟨by decide, by decide⟩

end Verif.Props
