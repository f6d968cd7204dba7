import Verif.Access.Lemmas
import Verif.Layout.CreateLemmas

/-!
# Property C70: buffers by name
-/

namespace Verif.Access

open Verif.Paths Verif.Layout

variable {A E : Type}

/-! ## Specification -/

/-- The child of a given name. -/
def LForest.find : LForest E → Name → Option (LTree E)
  | .nil, _ => none
  | .cons m t rest, n => if m = n then some t else rest.find n

/-- The node of the layout reached by a list of names. -/
def LTree.at : LTree E → List Name → Option (LTree E)
  | t, [] => some t
  | .array _, _ :: _ => none
  | .view _ cs, n :: ns => match cs.find n with
    | none => none
    | some t => t.at ns

/-- The array that a dotted path stands for, if it stands for one. -/
def arrayAt (mk : E → A) (t : LTree E) (path : Name) : Option A :=
  match t.at (splitDot path) with
  | some (.array e) => some (mk e)
  | _ => none

/-- The view `v` gives access to the children `ps`: as a list of pairs, by number, as attribute and by name. -/
structure Accesses (h : Heap A) (v : Val A) (ps : List (Name × Val A)) : Prop where
  pairs : items h v = some ps
  index : ∀ i n w, ps[i]? = some (n, w) → getIndex h v i = some w
  attr : ∀ n w, (n, w) ∈ ps → getAttr h v n = some w
  item : ∀ n w, (n, w) ∈ ps → getItem h v n = some w

/-! ## Lemmas -/

/-- The child of a given name. -/
def VForest.find : VForest A → Name → Option (VTree A)
  | .nil, _ => none
  | .cons m t rest, n => if m = n then some t else rest.find n

/-- The node reached by a list of names. -/
def VTree.at : VTree A → List Name → Option (VTree A)
  | t, [] => some t
  | .leaf _, _ :: _ => none
  | .node _ cs, n :: ns => match cs.find n with
    | none => none
    | some t => t.at ns

theorem get_pairs : ∀ (cs : VForest A) (n : Name), Dict.get? cs.pairs n = (cs.find n).map VTree.val
  | .nil, n => rfl
  | .cons m t rest, n => by
    rw [VForest.pairs, Dict.get?_cons, VForest.find, get_pairs rest n]
    by_cases e : m = n
    · rw [if_pos e, if_pos e]; rfl
    · rw [if_neg e, if_neg e]

theorem find_holds {h : Heap A} : ∀ (cs : VForest A), cs.Holds h → ∀ n t, cs.find n = some t → t.Holds h
  | .nil, _, n, t, ht => by simp [VForest.find] at ht
  | .cons m u rest, hh, n, t, ht => by
    rw [VForest.find] at ht
    by_cases e : m = n
    · rw [if_pos e] at ht; cases ht; exact hh.1
    · rw [if_neg e] at ht; exact find_holds rest hh.2.1 n t ht

theorem at_holds {h : Heap A} : ∀ (parts : List Name) (vt : VTree A), vt.Holds h → ∀ t, vt.at parts = some t → t.Holds h
  | [], vt, hh, t, ht => by rw [VTree.at] at ht; cases ht; exact hh
  | n :: ns, .leaf a, hh, t, ht => by simp [VTree.at] at ht
  | n :: ns, .node p cs, hh, t, ht => by
    rw [VTree.at] at ht
    cases hc : cs.find n with
    | none => simp [hc] at ht
    | some u =>
      rw [hc] at ht
      exact at_holds ns u (find_holds cs hh.2.2 n u hc) t ht

theorem walk_ok {h : Heap A} : ∀ (parts : List Name) (vt : VTree A), vt.Holds h → walk h vt.val parts = (vt.at parts).map VTree.val
  | [], vt, _ => by simp [walk, VTree.at]
  | n :: ns, .leaf a, _ => by simp [walk, VTree.at, VTree.val, getPlain]
  | n :: ns, .node p cs, hh => by
    obtain ⟨o, h1, h2⟩ := hh.1
    rw [walk, VTree.val, getPlain_ok h1 h2, get_pairs, VTree.at]
    cases hc : cs.find n with
    | none => rfl
    | some u =>
      simp only [Option.map_some]
      exact walk_ok ns u (find_holds cs hh.2.2 n u hc)

theorem match_find {mk : E → A} : ∀ (ls : LForest E) (cs : VForest A), VForest.Matches mk ls cs → ∀ n,
    (ls.find n = none ∧ cs.find n = none) ∨ ∃ t u, ls.find n = some t ∧ cs.find n = some u ∧ VTree.Matches mk t u
  | .nil, .nil, _, n => .inl ⟨rfl, rfl⟩
  | .cons m t rest, .cons m' u rest', h, n => by
    obtain ⟨rfl, h2, h3⟩ := h
    rw [LForest.find, VForest.find]
    by_cases e : m = n
    · rw [if_pos e, if_pos e]; exact .inr ⟨t, u, rfl, rfl, h2⟩
    · rw [if_neg e, if_neg e]; exact match_find rest rest' h3 n
  | .nil, .cons _ _ _, h, _ => by simp [VForest.Matches] at h
  | .cons _ _ _, .nil, h, _ => by simp [VForest.Matches] at h

theorem match_at {mk : E → A} : ∀ (parts : List Name) (t : LTree E) (vt : VTree A), VTree.Matches mk t vt →
    (t.at parts = none ∧ vt.at parts = none) ∨ ∃ u vu, t.at parts = some u ∧ vt.at parts = some vu ∧ VTree.Matches mk u vu
  | [], t, vt, h => .inr ⟨t, vt, by cases t <;> rfl, by cases vt <;> rfl, h⟩
  | n :: ns, .array e, .leaf a, h => .inl ⟨rfl, rfl⟩
  | n :: ns, .array e, .node p cs, h => by simp [VTree.Matches] at h
  | n :: ns, .view full ls, .leaf a, h => by simp [VTree.Matches] at h
  | n :: ns, .view full ls, .node p cs, h => by
    rw [LTree.at, VTree.at]
    rcases match_find ls cs h n with ⟨h1, h2⟩ | ⟨t, u, h1, h2, h3⟩
    · rw [h1, h2]; exact .inl ⟨rfl, rfl⟩
    · rw [h1, h2]; exact match_at ns t u h3

theorem kept_pairs : ∀ (cs ds : VForest A), VForest.Kept cs ds → (cs.pairs = [] ↔ ds.pairs = [])
  | .nil, .nil, _ => Iff.rfl
  | .cons _ _ _, .cons _ _ _, _ => by simp [VForest.pairs]
  | .nil, .cons _ _ _, h => by simp [VForest.Kept] at h
  | .cons _ _ _, .nil, h => by simp [VForest.Kept] at h

theorem kept_find : ∀ (cs ds : VForest A), VForest.Kept cs ds → ∀ n t, cs.find n = some t → ∃ u, ds.find n = some u ∧ VTree.Kept t u
  | .nil, .nil, _, n, t, ht => by simp [VForest.find] at ht
  | .cons m t rest, .cons m' u rest', h, n, x, hx => by
    obtain ⟨rfl, h2, h3⟩ := h
    rw [VForest.find] at hx ⊢
    by_cases e : m = n
    · rw [if_pos e] at hx; cases hx; rw [if_pos e]; exact ⟨u, rfl, h2⟩
    · rw [if_neg e] at hx; rw [if_neg e]; exact kept_find rest rest' h3 n x hx
  | .nil, .cons _ _ _, h, _, _, _ => by simp [VForest.Kept] at h
  | .cons _ _ _, .nil, h, _, _, _ => by simp [VForest.Kept] at h

theorem kept_at : ∀ (parts : List Name) (vt vt' : VTree A), VTree.Kept vt vt' → ∀ p cs, vt.at parts = some (.node p cs) → cs.pairs ≠ [] →
    ∃ cs', vt'.at parts = some (.node p cs') ∧ cs'.pairs ≠ []
  | [], .node q ds, .node q' ds', h, p, cs, he, hne => by
    rw [VTree.at] at he
    cases he
    obtain ⟨h1, h2⟩ := h
    exact ⟨ds', by rw [VTree.at, h1 hne], fun hc => hne ((kept_pairs _ _ h2).2 hc)⟩
  | [], .leaf a, _, h, p, cs, he, hne => by simp [VTree.at] at he
  | [], .node _ _, .leaf _, h, p, cs, he, hne => by simp [VTree.Kept] at h
  | n :: ns, .leaf a, _, h, p, cs, he, hne => by simp [VTree.at] at he
  | n :: ns, .node q ds, .leaf _, h, p, cs, he, hne => by simp [VTree.Kept] at h
  | n :: ns, .node q ds, .node q' ds', h, p, cs, he, hne => by
    rw [VTree.at] at he
    cases hc : ds.find n with
    | none => simp [hc] at he
    | some t =>
      rw [hc] at he
      obtain ⟨u, hu1, hu2⟩ := kept_find ds ds' h.2 n t hc
      rw [VTree.at, hu1]
      exact kept_at ns t u hu2 p cs he hne

theorem find_free : ∀ (ls : LForest E), ls.Free → ∀ n t, ls.find n = some t → t.Free
  | .nil, _, n, t, ht => by simp [LForest.find] at ht
  | .cons m u rest, hf, n, t, ht => by
    rw [LForest.find] at ht
    by_cases e : m = n
    · rw [if_pos e] at ht; cases ht; exact hf.2.2.1
    · rw [if_neg e] at ht; exact find_free rest hf.2.2.2 n t ht

theorem at_free : ∀ (parts : List Name) (t u : LTree E), t.Free → t.at parts = some u → u.Free
  | [], t, u, hf, h => by cases t <;> (rw [LTree.at] at h; cases h; exact hf)
  | n :: ns, .array e, u, hf, h => by simp [LTree.at] at h
  | n :: ns, .view full ls, u, hf, h => by
    rw [LTree.at] at h
    cases hc : ls.find n with
    | none => simp [hc] at h
    | some t =>
      rw [hc] at h
      exact at_free ns t u (find_free ls hf.2 n t hc) h

/-- Access to one view of a tree. -/
theorem accesses_of {h : Heap A} {mk : E → A} {p : Nat} {cs : VForest A} {full : Option E} {ls : LForest E}
    (hh : (VTree.node p cs).Holds h) (hm : VTree.Matches mk (.view full ls) (.node p cs)) (hf : (LTree.view full ls).Free) :
    Accesses h (.ref p) cs.pairs ∧ cs.pairs.map Prod.fst = ls.names := by
  have hn := Matches.names ls cs hm
  obtain ⟨⟨o, h1, h2⟩, -, -⟩ := hh
  have hnd : (Dict.keys cs.pairs).Nodup := by show (cs.pairs.map Prod.fst).Nodup; rw [hn]; exact hf.1
  have hno : ∀ m ∈ [str "items", str "_asdict"], Dict.has o.attrs m = false := by
    intro m hm'
    rw [Bool.eq_false_iff]
    intro hc
    rcases h2.only m hc with h' | h'
    · refine (Free.names ls hf.2 m (hn ▸ h')).1 ?_
      simp only [List.mem_cons, List.not_mem_nil, or_false] at hm'
      rcases hm' with rfl | rfl <;> decide
    · simp only [List.mem_cons, List.not_mem_nil, or_false] at hm'
      rcases hm' with rfl | rfl <;> revert h' <;> decide
  refine ⟨⟨?_, ?_, ?_, ?_⟩, hn⟩
  · rw [items, h1]
    simp only [hno (str "items") (by simp), hno (str "_asdict") (by simp), Bool.or_self, Bool.false_eq_true, if_false, h2.names,
      h2.items, zip_fst_snd]
  · intro i n w hi
    rw [getIndex, h1, Option.bind_some, h2.items, List.getElem?_map, hi]; rfl
  · intro n w hw
    rw [getAttr, h1, Option.bind_some, h2.child n (List.mem_map.2 ⟨_, hw, rfl⟩), Dict.get?_of_mem hnd hw]
  · intro n w hw
    rw [getItem_ok h1 h2 n (Free.names ls hf.2 n (hn ▸ List.mem_map.2 ⟨_, hw, rfl⟩)).2, Dict.get?_of_mem hnd hw]

/-- Any string as a key of the root. -/
theorem getItem_any {h : Heap A} {mk : E → A} {p : Nat} {cs : VForest A} {full : Option E} {ls : LForest E}
    (hh : (VTree.node p cs).Holds h) (hm : VTree.Matches mk (.view full ls) (.node p cs)) (hf : (LTree.view full ls).Free) (path : Name) :
    getItem h (.ref p) path = ((VTree.node p cs).at (splitDot path)).map VTree.val := by
  have hn := Matches.names ls cs hm
  obtain ⟨o, h1, h2⟩ := hh.1
  by_cases hd : '.' ∈ path
  · have hnk : path ∉ cs.pairs.map Prod.fst := fun hc => (Free.names ls hf.2 path (hn ▸ hc)).2 hd
    rw [getItem, h1]
    simp only [hasKey, h2.keys, decide_eq_false hnk, if_pos hd]
    exact walk_ok (splitDot path) (.node p cs) hh
  · rw [getItem_ok h1 h2 path hd, splitDot_plain path hd, get_pairs, VTree.at]
    cases cs.find path with
    | none => rfl
    | some u => cases u <;> rfl

theorem parameters_ok {h : Heap A} {mk : E → A} {t : LTree E} {vt : VTree A} (hh : vt.Holds h) (hm : VTree.Matches mk t vt) (hf : t.Free)
    {e : E} (he : t.at [str "parameters"] = some (.array e)) : parametersArray h vt.val = some (mk e) := by
  cases t with
  | array e' => simp [LTree.at] at he
  | view full ls =>
    cases vt with
    | leaf a => simp [VTree.Matches] at hm
    | node p cs =>
      obtain ⟨hacc, -⟩ := accesses_of hh hm hf
      have hfind : ls.find (str "parameters") = some (.array e) := by
        rw [LTree.at] at he
        cases hc : ls.find (str "parameters") with
        | none => simp [hc] at he
        | some u =>
          rw [hc] at he
          simp only [LTree.at, Option.some.injEq] at he
          rw [he]
      rcases match_find ls cs hm (str "parameters") with ⟨h1, -⟩ | ⟨t, u, h1, h2, h3⟩
      · rw [hfind] at h1; cases h1
      · rw [hfind] at h1
        cases h1
        cases u with
        | node q ds => simp [VTree.Matches] at h3
        | leaf a =>
          have hg : Dict.get? cs.pairs (str "parameters") = some (.arr a) := by rw [get_pairs, h2]; rfl
          rw [parametersArray, VTree.val, hacc.attr _ _ (Dict.mem_of_get? hg)]
          have : a = mk e := h3
          rw [this]

/-- One resize keeps everything in order. -/
theorem resize_ok {t : LTree E} (hf : t.Free) {e : E} (he : t.at [str "parameters"] = some (.array e)) (mk0 mk : E → A) (h : Heap A)
    (vt : VTree A) (hh : vt.Holds h) (hm : VTree.Matches mk0 t vt) :
    ∃ h' vt', resize mk h t vt.val = some (h', vt'.val) ∧ vt'.Holds h' ∧ VTree.Matches mk t vt' ∧ VTree.Kept vt vt' := by
  obtain ⟨h', vt', h1, h2⟩ := create_existing mk0 mk t hf h vt hh hm
  refine ⟨h', vt', ?_, h2.holds, h2.matched, h2.kept⟩
  rw [resize, parameters_ok hh hm hf he]
  simp only [h1]
  rw [parameters_ok h2.holds h2.matched hf he]

theorem resizes_ok {t : LTree E} (hf : t.Free) {e : E} (he : t.at [str "parameters"] = some (.array e)) :
    ∀ (mks : List (E → A)) (mk0 : E → A) (h : Heap A) (vt : VTree A), vt.Holds h → VTree.Matches mk0 t vt →
    ∃ h' vt', resizes t mks (h, vt.val) = some (h', vt'.val) ∧ vt'.Holds h' ∧ VTree.Matches (mks.getLast?.getD mk0) t vt' ∧
      ∀ parts p cs, vt.at parts = some (.node p cs) → cs.pairs ≠ [] → ∃ cs', vt'.at parts = some (.node p cs') ∧ cs'.pairs ≠ []
  | [], mk0, h, vt, hh, hm => ⟨h, vt, rfl, hh, hm, fun parts p cs h1 h2 => ⟨cs, h1, h2⟩⟩
  | mk :: mks, mk0, h, vt, hh, hm => by
    obtain ⟨h1, vt1, r1, r2, r3, r4⟩ := resize_ok hf he mk0 mk h vt hh hm
    obtain ⟨h2, vt2, s1, s2, s3, s4⟩ := resizes_ok hf he mks mk h1 vt1 r2 r3
    refine ⟨h2, vt2, by rw [resizes]; simp only [r1]; exact s1, s2, ?_, ?_⟩
    · have : (mk :: mks).getLast?.getD mk0 = mks.getLast?.getD mk := by
        cases mks with
        | nil => rfl
        | cons m ms => rw [List.getLast?_cons_cons, List.getLast?_eq_some_getLast (List.cons_ne_nil _ _)]; rfl
      rw [this]; exact s3
    · intro parts p cs q1 q2
      obtain ⟨cs1, t1, t2⟩ := kept_at parts vt vt1 r4 p cs q1 q2
      exact s4 parts p cs1 t1 t2

/-! ## Theorems -/

/-- **C70 (access).** Take any layout whose names are usable and that has an array of parameters.  The views of a new network can be
created and, from then on, be changed to other sizes any number of times.  The root always stays the same object, and so do all
views that are not empty (a view that a user has kept shows the current arrays).  At any time:
* `net.get(path)` gives, for every string `path`, the current array that the path stands for, and an exception if the path
  does not stand for an array;
* every view gives the same children as list of pairs, by number, as attribute and by name, and these are the current ones. -/
theorem C70_access (t : LTree E) (hf : t.Free) (e : E) (he : t.at [str "parameters"] = some (.array e)) (mk : E → A) (h : Heap A)
    (mks : List (E → A)) :
    ∃ s s' root, mkNet mk h t = some (s, root) ∧ resizes t mks (s, root) = some (s', root) ∧
      (∀ path, netGet s' root path = arrayAt (mks.getLast?.getD mk) t path) ∧
      (∀ parts full ls, t.at parts = some (.view full ls) → ∃ v ps, walk s' root parts = some v ∧ Accesses s' v ps ∧
        ps.map Prod.fst = ls.names ∧ ∀ n w, (n, w) ∈ ps → walk s' root (parts ++ [n]) = some w) ∧
      ∀ parts full ls p, t.at parts = some (.view full ls) → ls.names ≠ [] → walk s root parts = some (.ref p) →
        walk s' root parts = some (.ref p) := by
  obtain ⟨ext1, vt1, a1, a2, a3, -⟩ := create_fresh mk t hf h
  obtain ⟨ext2, vt, b1, b2, b3, -⟩ := create_fresh mk t hf (h ++ ext1)
  have hnet : mkNet mk h t = some (h ++ ext1 ++ ext2, vt.val) := by
    rw [mkNet, a1]
    simp only [parameters_ok a2 a3 hf he]
    rw [b1]
    simp only [parameters_ok b2 b3 hf he]
  obtain ⟨s', vt', c1, c2, c3, c4⟩ := resizes_ok hf he mks mk _ vt b2 b3
  set last := mks.getLast?.getD mk
  -- the root is a view
  obtain ⟨full, ls, rfl⟩ : ∃ full ls, t = .view full ls := by
    cases t with
    | array e' => simp [LTree.at] at he
    | view full ls => exact ⟨full, ls, rfl⟩
  obtain ⟨p, cs, rfl⟩ : ∃ p cs, vt = .node p cs := by
    cases vt with
    | leaf a => simp [VTree.Matches] at b3
    | node p cs => exact ⟨p, cs, rfl⟩
  have hne : cs.pairs ≠ [] := by
    intro hc
    have hn := Matches.names ls cs b3
    rw [hc] at hn
    cases ls with
    | nil => simp [LTree.at, LForest.find] at he
    | cons n t rest => simp [LForest.names] at hn
  obtain ⟨cs', hroot, -⟩ := c4 [] p cs rfl hne
  have hvt' : vt' = .node p cs' := by
    cases vt' with
    | leaf a => simp [VTree.at] at hroot
    | node q ds => rw [VTree.at] at hroot; cases hroot; rfl
  subst hvt'
  refine ⟨_, s', .ref p, hnet, c1, ?_, ?_, ?_⟩
  · intro path
    rw [netGet, getItem_any c2 c3 hf path, arrayAt]
    rcases match_at (splitDot path) _ _ c3 with ⟨h1, h2⟩ | ⟨u, vu, h1, h2, h3⟩
    · rw [h1, h2]; rfl
    · rw [h1, h2]
      cases u with
      | array e' =>
        cases vu with
        | leaf a => exact congrArg some h3
        | node q ds => simp [VTree.Matches] at h3
      | view f' ls' =>
        cases vu with
        | leaf a => simp [VTree.Matches] at h3
        | node q ds => rfl
  · intro parts full' ls' hat
    rcases match_at parts _ _ c3 with ⟨h1, -⟩ | ⟨u, vu, h1, h2, h3⟩
    · rw [hat] at h1; cases h1
    · rw [hat] at h1
      cases h1
      cases vu with
      | leaf a => simp [VTree.Matches] at h3
      | node q ds =>
        obtain ⟨hacc, hn⟩ := accesses_of (at_holds parts _ c2 _ h2) h3 (at_free parts _ _ hf hat)
        refine ⟨.ref q, ds.pairs, ?_, hacc, hn, ?_⟩
        · have := walk_ok parts _ c2
          rw [h2] at this
          exact this
        · intro n w hw
          have hnd : (Dict.keys ds.pairs).Nodup := by
            show (ds.pairs.map Prod.fst).Nodup
            rw [hn]; exact (at_free parts _ _ hf hat).1
          have hg := Dict.get?_of_mem hnd hw
          rw [get_pairs, Option.map_eq_some_iff] at hg
          obtain ⟨x, hx1, hx2⟩ := hg
          have hat' : ∀ (ps : List Name) (v : VTree A), v.at ps = some (.node q ds) → v.at (ps ++ [n]) = some x := by
            intro ps
            induction ps with
            | nil =>
              intro v hv
              rw [VTree.at] at hv
              cases hv
              rw [List.nil_append, VTree.at, hx1]
              cases x <;> rfl
            | cons m ms ih =>
              intro v hv
              cases v with
              | leaf a => simp [VTree.at] at hv
              | node r es =>
                rw [VTree.at] at hv
                rw [List.cons_append, VTree.at]
                cases hc : es.find m with
                | none => simp [hc] at hv
                | some y => rw [hc] at hv; exact ih y hv
          have := walk_ok (parts ++ [n]) _ c2
          rw [hat' parts _ h2, Option.map_some, hx2] at this
          exact this
  · intro parts full' ls' q hat hne' hw
    rcases match_at parts _ _ b3 with ⟨h1, -⟩ | ⟨u, vu, h1, h2, h3⟩
    · rw [hat] at h1; cases h1
    · rw [hat] at h1
      cases h1
      cases vu with
      | leaf a => simp [VTree.Matches] at h3
      | node r ds =>
        have hw' := walk_ok parts _ b2
        rw [h2] at hw'
        have : (Val.ref r : Val A) = .ref q := by
          rw [show (VTree.node p cs : VTree A).val = .ref p from rfl] at hw'
          rw [hw'] at hw
          exact Option.some.inj hw
        cases this
        have hn := Matches.names ls' ds h3
        obtain ⟨ds', h4, -⟩ := c4 parts q ds h2 (by
          intro hc
          rw [hc] at hn
          exact hne' hn.symm)
        have := walk_ok parts _ c2
        rw [h4] at this
        exact this

end Verif.Access
