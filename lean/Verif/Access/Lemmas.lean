import Verif.Access.Model
import Mathlib.Data.List.Nodup

/-!
# Lemmas for C70
-/

namespace Verif.Access

open Verif.Paths Verif.Layout

variable {A E : Type}

/-! ### Names that must not be used -/

/-- The attributes and methods that `BufferView` uses itself. -/
def reserved : List Name :=
  [str "adjust", str "_asdict", str "items", str "keys", str "values", fullName, namesName, keysName]

/-! ### Trees of views -/

mutual
/-- What the views form: arrays, and objects at addresses with named children. -/
inductive VTree (A : Type)
  | leaf (a : A)
  | node (p : Nat) (cs : VForest A)
/-- Named children. -/
inductive VForest (A : Type)
  | nil
  | cons (n : Name) (t : VTree A) (rest : VForest A)
end

/-- The Python value. -/
def VTree.val : VTree A → Val A
  | .leaf a => .arr a
  | .node p _ => .ref p

/-- The children with their values. -/
def VForest.pairs : VForest A → List (Name × Val A)
  | .nil => []
  | .cons n t rest => (n, t.val) :: rest.pairs

mutual
/-- The addresses in use. -/
def VTree.addrs : VTree A → List Nat
  | .leaf _ => []
  | .node p cs => p :: cs.addrs
@[inherit_doc VTree.addrs]
def VForest.addrs : VForest A → List Nat
  | .nil => []
  | .cons _ t rest => t.addrs ++ rest.addrs
end

/-- An object is the view of these children. -/
structure ObjOk (o : Obj A) (ps : List (Name × Val A)) : Prop where
  items : o.items = ps.map Prod.snd
  names : Dict.get? o.attrs namesName = some (.names (ps.map Prod.fst))
  keys : Dict.get? o.attrs keysName = some (.names (ps.map Prod.fst))
  child : ∀ n ∈ ps.map Prod.fst, Dict.get? o.attrs n = Dict.get? ps n
  only : ∀ n, Dict.has o.attrs n = true → n ∈ ps.map Prod.fst ∨ n ∈ [fullName, namesName, keysName]

mutual
/-- The heap has the objects of the tree, each at its own address. -/
def VTree.Holds (h : Heap A) : VTree A → Prop
  | .leaf _ => True
  | .node p cs => (∃ o, h[p]? = some o ∧ ObjOk o cs.pairs) ∧ p ∉ cs.addrs ∧ cs.Holds h
@[inherit_doc VTree.Holds]
def VForest.Holds (h : Heap A) : VForest A → Prop
  | .nil => True
  | .cons _ t rest => t.Holds h ∧ rest.Holds h ∧ ∀ x ∈ t.addrs, x ∉ rest.addrs
end

mutual
/-- The tree is what the layout describes. -/
def VTree.Matches (mk : E → A) : LTree E → VTree A → Prop
  | .array e, .leaf a => a = mk e
  | .view _ ls, .node _ cs => VForest.Matches mk ls cs
  | _, _ => False
@[inherit_doc VTree.Matches]
def VForest.Matches (mk : E → A) : LForest E → VForest A → Prop
  | .nil, .nil => True
  | .cons n t rest, .cons m u rest' => n = m ∧ VTree.Matches mk t u ∧ VForest.Matches mk rest rest'
  | _, _ => False
end

mutual
/-- Views with children keep their address. -/
def VTree.Kept : VTree A → VTree A → Prop
  | .leaf _, .leaf _ => True
  | .node p cs, .node q ds => (cs.pairs ≠ [] → p = q) ∧ VForest.Kept cs ds
  | _, _ => False
@[inherit_doc VTree.Kept]
def VForest.Kept : VForest A → VForest A → Prop
  | .nil, .nil => True
  | .cons n t rest, .cons m u rest' => n = m ∧ VTree.Kept t u ∧ VForest.Kept rest rest'
  | _, _ => False
end

mutual
/-- All names can be used: no reserved name, no dot, and different names for siblings. -/
def LTree.Free : LTree E → Prop
  | .array _ => True
  | .view _ cs => cs.names.Nodup ∧ cs.Free
@[inherit_doc LTree.Free]
def LForest.Free : LForest E → Prop
  | .nil => True
  | .cons n t rest => n ∉ reserved ∧ '.' ∉ n ∧ t.Free ∧ rest.Free
end

/-! ### Objects -/

theorem zip_fst_snd {X Y : Type} : ∀ l : List (X × Y), (l.map Prod.fst).zip (l.map Prod.snd) = l
  | [] => rfl
  | (x, y) :: l => by rw [List.map_cons, List.map_cons, List.zip_cons_cons, zip_fst_snd l]

theorem get_setAll : ∀ (ps : List (Name × Val A)) (attrs : Dict Name (Val A)) (n : Name), (ps.map Prod.fst).Nodup →
    Dict.get? (setAll attrs ps) n = if n ∈ ps.map Prod.fst then Dict.get? ps n else Dict.get? attrs n
  | [], attrs, n, _ => by simp [setAll]
  | (m, b) :: ps, attrs, n, hnd => by
    have hnd' : m ∉ ps.map Prod.fst ∧ (ps.map Prod.fst).Nodup := by simpa using hnd
    rw [setAll, get_setAll ps _ n hnd'.2, Dict.get?_cons]
    by_cases e : m = n
    · subst e
      rw [if_neg hnd'.1, Dict.get?_set_self, if_pos (by simp), if_pos rfl]
    · rw [if_neg e, Dict.get?_set_ne _ _ _ _ e]
      have : n ∈ ((m, b) :: ps).map Prod.fst ↔ n ∈ ps.map Prod.fst := by
        rw [List.map_cons, List.mem_cons]
        exact ⟨fun h => h.resolve_left (fun h' => e h'.symm), .inr⟩
      simp only [this]

theorem internal_reserved {n : Name} (h : n ∈ [fullName, namesName, keysName]) : n ∈ reserved := by
  simp only [List.mem_cons, List.not_mem_nil, or_false] at h
  rcases h with rfl | rfl | rfl <;> decide

theorem mkView_ok (ps : List (Name × Val A)) (hnd : (ps.map Prod.fst).Nodup) (hr : ∀ n ∈ ps.map Prod.fst, n ∉ reserved) (full : Val A) :
    ∃ o, mkView (ps.map Prod.fst) (ps.map Prod.snd) full = some o ∧ ObjOk o ps := by
  refine ⟨_, by rw [mkView, if_pos (by simp)], rfl, ?_, ?_, ?_, ?_⟩
  · rw [zip_fst_snd, get_setAll _ _ _ hnd, if_neg (fun h => hr _ h (by decide))]; rfl
  · rw [zip_fst_snd, get_setAll _ _ _ hnd, if_neg (fun h => hr _ h (by decide))]; rfl
  · intro n hn
    rw [zip_fst_snd, get_setAll _ _ _ hnd, if_pos hn]
  · intro n hn
    dsimp only at hn
    rw [Dict.has, zip_fst_snd, get_setAll _ _ _ hnd] at hn
    by_cases h : n ∈ ps.map Prod.fst
    · exact .inl h
    · rw [if_neg h, ← Dict.mem_keys_iff] at hn
      exact .inr hn

theorem adjustLoop_eq : ∀ (ps : List (Name × Val A)) (pre old : List (Val A)) (attrs : Dict Name (Val A)), old.length = ps.length →
    adjustLoop pre.length ps ⟨pre ++ old, attrs⟩ = some ⟨pre ++ ps.map Prod.snd, setAll attrs ps⟩
  | [], pre, old, attrs, h => by
    have : old = [] := List.length_eq_zero_iff.1 h
    subst this; rfl
  | (n, b) :: ps, pre, [], attrs, h => by simp at h
  | (n, b) :: ps, pre, x :: old, attrs, h => by
    rw [adjustLoop, if_pos (by simp)]
    have e : (pre ++ x :: old).set pre.length b = (pre ++ [b]) ++ old := by
      rw [List.set_append_right _ _ (Nat.le_refl _), Nat.sub_self, List.set_cons_zero, List.append_assoc]; rfl
    dsimp only
    rw [e, show pre.length + 1 = (pre ++ [b]).length by simp, adjustLoop_eq ps (pre ++ [b]) old _ (by simpa using h)]
    simp [setAll]

theorem adjust_ok {h : Heap A} {p : Nat} {o : Obj A} {ps : List (Name × Val A)} (hp : h[p]? = some o) (ho : ObjOk o ps)
    (qs : List (Name × Val A)) (hn : qs.map Prod.fst = ps.map Prod.fst) (hnd : (ps.map Prod.fst).Nodup)
    (hr : ∀ n ∈ ps.map Prod.fst, n ∉ reserved) (full : Val A) :
    ∃ o', adjust h p (qs.map Prod.fst) (qs.map Prod.snd) full = some (h.set p o') ∧ ObjOk o' qs := by
  have hnoadj : ¬ Dict.has o.attrs (str "adjust") = true := by
    intro hc
    rcases ho.only _ hc with h' | h'
    · exact hr _ h' (by decide)
    · revert h'; decide
  have hlen : o.items.length = qs.length := by
    rw [ho.items, List.length_map, ← List.length_map (f := Prod.fst) (as := qs), hn, List.length_map]
  have hnd' : (qs.map Prod.fst).Nodup := hn ▸ hnd
  have hr' : ∀ n ∈ qs.map Prod.fst, n ∉ reserved := hn ▸ hr
  have hloop := adjustLoop_eq qs [] o.items (Dict.set o.attrs fullName full) hlen
  simp only [List.nil_append, List.length_nil] at hloop
  refine ⟨⟨qs.map Prod.snd, setAll (Dict.set o.attrs fullName full) qs⟩, ?_, rfl, ?_, ?_, ?_, ?_⟩
  · rw [adjust, hp]
    dsimp only
    rw [if_neg hnoadj, ho.names]
    dsimp only
    rw [if_pos hn.symm, zip_fst_snd, hloop]; rfl
  · dsimp only
    rw [get_setAll _ _ _ hnd', if_neg (fun h => hr' _ h (by decide)), Dict.get?_set_ne _ _ _ _ (by decide), ho.names, hn]
  · dsimp only
    rw [get_setAll _ _ _ hnd', if_neg (fun h => hr' _ h (by decide)), Dict.get?_set_ne _ _ _ _ (by decide), ho.keys, hn]
  · intro n hn'
    dsimp only
    rw [get_setAll _ _ _ hnd', if_pos hn']
  · intro n hn'
    dsimp only at hn'
    rw [Dict.has, get_setAll _ _ _ hnd'] at hn'
    by_cases h' : n ∈ qs.map Prod.fst
    · exact .inl h'
    · rw [if_neg h', Dict.get?_set] at hn'
      by_cases e : fullName = n
      · subst e; exact .inr (by simp)
      · rw [if_neg e] at hn'
        rcases ho.only n hn' with h'' | h''
        · exact absurd (hn ▸ h'') h'
        · exact .inr h''

theorem getPlain_ok {h : Heap A} {p : Nat} {o : Obj A} {ps : List (Name × Val A)} (hp : h[p]? = some o) (ho : ObjOk o ps) (n : Name) :
    getPlain h (.ref p) n = Dict.get? ps n := by
  rw [getPlain, hp]
  dsimp only
  rw [hasKey, ho.keys]
  by_cases hn : n ∈ ps.map Prod.fst
  · simp only [decide_eq_true hn]
    exact ho.child n hn
  · simp only [decide_eq_false hn]
    exact ((Dict.get?_eq_none_iff ps n).2 hn).symm

/-! ### Frames -/

mutual
theorem VTree.Holds.frame {h h' : Heap A} : ∀ (t : VTree A), t.Holds h → (∀ x ∈ t.addrs, h'[x]? = h[x]?) → t.Holds h'
  | .leaf _, _, _ => trivial
  | .node p cs, ht, hx => by
    obtain ⟨⟨o, h1, h2⟩, h3, h4⟩ := ht
    exact ⟨⟨o, by rw [hx p (by simp [VTree.addrs])]; exact h1, h2⟩, h3,
      VForest.Holds.frame cs h4 (fun x hx' => hx x (by simp [VTree.addrs, hx']))⟩
theorem VForest.Holds.frame {h h' : Heap A} : ∀ (t : VForest A), t.Holds h → (∀ x ∈ t.addrs, h'[x]? = h[x]?) → t.Holds h'
  | .nil, _, _ => trivial
  | .cons _ t rest, ht, hx => by
    obtain ⟨h1, h2, h3⟩ := ht
    exact ⟨VTree.Holds.frame t h1 (fun x hx' => hx x (by simp [VForest.addrs, hx'])),
      VForest.Holds.frame rest h2 (fun x hx' => hx x (by simp [VForest.addrs, hx'])), h3⟩
end

mutual
theorem VTree.Holds.lt {h : Heap A} : ∀ (t : VTree A), t.Holds h → ∀ x ∈ t.addrs, x < h.length
  | .leaf _, _, x, hx => by simp [VTree.addrs] at hx
  | .node p cs, ht, x, hx => by
    obtain ⟨⟨o, h1, h2⟩, h3, h4⟩ := ht
    rw [VTree.addrs, List.mem_cons] at hx
    rcases hx with rfl | hx
    · exact (List.getElem?_eq_some_iff.1 h1).1
    · exact VForest.Holds.lt cs h4 x hx
theorem VForest.Holds.lt {h : Heap A} : ∀ (t : VForest A), t.Holds h → ∀ x ∈ t.addrs, x < h.length
  | .nil, _, x, hx => by simp [VForest.addrs] at hx
  | .cons _ t rest, ht, x, hx => by
    rw [VForest.addrs, List.mem_append] at hx
    rcases hx with hx | hx
    · exact VTree.Holds.lt t ht.1 x hx
    · exact VForest.Holds.lt rest ht.2.1 x hx
end

theorem Matches.names {mk : E → A} : ∀ (ls : LForest E) (cs : VForest A), VForest.Matches mk ls cs → cs.pairs.map Prod.fst = ls.names
  | .nil, .nil, _ => rfl
  | .cons n t rest, .cons m u rest', h => by
    obtain ⟨rfl, -, h3⟩ := h
    simp only [VForest.pairs, List.map_cons, LForest.names]
    rw [Matches.names rest rest' h3]
  | .nil, .cons _ _ _, h => by simp [VForest.Matches] at h
  | .cons _ _ _, .nil, h => by simp [VForest.Matches] at h

theorem Free.names : ∀ (ls : LForest E), ls.Free → ∀ n ∈ ls.names, n ∉ reserved ∧ '.' ∉ n
  | .nil, _, n, hn => by simp [LForest.names] at hn
  | .cons m t rest, h, n, hn => by
    rw [LForest.names, List.mem_cons] at hn
    rcases hn with rfl | hn
    · exact ⟨h.1, h.2.1⟩
    · exact Free.names rest h.2.2.2 n hn

/-! ### Creating -/

theorem get_append {h ext : Heap A} {x : Nat} (hx : x < h.length) : (h ++ ext)[x]? = h[x]? := List.getElem?_append_left hx

mutual
theorem create_fresh (mk : E → A) : ∀ (t : LTree E), t.Free → ∀ h : Heap A, ∃ ext vt,
    create mk h t none = some (h ++ ext, vt.val) ∧ vt.Holds (h ++ ext) ∧ VTree.Matches mk t vt ∧ ∀ x ∈ vt.addrs, h.length ≤ x
  | .array e, _, h => ⟨[], .leaf (mk e), by rw [create, List.append_nil]; rfl, trivial, rfl, by simp [VTree.addrs]⟩
  | .view full ls, hf, h => by
    obtain ⟨ext, cs, h1, h2, h3, h4⟩ := createAll_fresh mk ls hf.2 h
    have hn := Matches.names ls cs h3
    obtain ⟨o, ho1, ho2⟩ := mkView_ok cs.pairs (hn ▸ hf.1) (fun n hm => (Free.names ls hf.2 n (hn ▸ hm)).1)
      ((full.map (fun e => Val.arr (mk e))).getD .none)
    have hlt := VForest.Holds.lt cs h2
    refine ⟨ext ++ [o], .node (h ++ ext).length cs, ?_, ⟨⟨o, by rw [← List.append_assoc]; simp, ho2⟩, ?_, ?_⟩, h3, ?_⟩
    · rw [create, existing]
      simp only [h1]
      rw [← hn, ho1]
      dsimp only
      rw [List.append_assoc]; rfl
    · exact fun hx => Nat.lt_irrefl _ (hlt _ hx)
    · exact VForest.Holds.frame cs h2 (fun x hx => by rw [← List.append_assoc]; exact get_append (hlt x hx))
    · intro x hx
      rw [VTree.addrs, List.mem_cons] at hx
      rcases hx with rfl | hx
      · simp
      · exact h4 x hx
theorem createAll_fresh (mk : E → A) : ∀ (ls : LForest E), ls.Free → ∀ h : Heap A, ∃ ext cs,
    createAll mk h ls none = some (h ++ ext, cs.pairs.map Prod.snd) ∧ cs.Holds (h ++ ext) ∧ VForest.Matches mk ls cs ∧
      ∀ x ∈ cs.addrs, h.length ≤ x
  | .nil, _, h => ⟨[], .nil, by rw [createAll, List.append_nil]; rfl, trivial, trivial, by simp [VForest.addrs]⟩
  | .cons n t rest, hf, h => by
    obtain ⟨ext, vt, h1, h2, h3, h4⟩ := create_fresh mk t hf.2.2.1 h
    obtain ⟨ext', cs, r1, r2, r3, r4⟩ := createAll_fresh mk rest hf.2.2.2 (h ++ ext)
    have hlt := VTree.Holds.lt vt h2
    refine ⟨ext ++ ext', .cons n vt cs, ?_, ⟨?_, by rw [← List.append_assoc]; exact r2, ?_⟩, ⟨rfl, h3, r3⟩, ?_⟩
    · rw [createAll, h1]
      simp only [r1]
      rw [List.append_assoc]; rfl
    · exact VTree.Holds.frame vt h2 (fun x hx => by rw [← List.append_assoc]; exact get_append (hlt x hx))
    · intro x hx hx'
      have := hlt x hx
      have := r4 x hx'
      omega
    · intro x hx
      rw [VForest.addrs, List.mem_append] at hx
      rcases hx with hx | hx
      · exact h4 x hx
      · have := r4 x hx
        rw [List.length_append] at this
        omega
end

/-! ### Adjusting -/

theorem getItem_ok {h : Heap A} {p : Nat} {o : Obj A} {ps : List (Name × Val A)} (hp : h[p]? = some o) (ho : ObjOk o ps) (n : Name)
    (hd : '.' ∉ n) : getItem h (.ref p) n = Dict.get? ps n := by
  rw [← getPlain_ok hp ho n]
  unfold getItem getPlain
  simp only [hp]
  cases hasKey h o n with
  | none => rfl
  | some b => cases b with
    | true => rfl
    | false => simp [hd]

theorem contains_ok {h : Heap A} {o : Obj A} {ps : List (Name × Val A)} (ho : ObjOk o ps) (n : Name) :
    contains h o n = some (decide (n ∈ ps.map Prod.fst)) := by
  rw [contains, ho.names]

/-- What `create` does to an existing tree of views. -/
structure Updated (mk : E → A) (h : Heap A) (vt : VTree A) (t : LTree E) (h' : Heap A) (vt' : VTree A) : Prop where
  holds : vt'.Holds h'
  matched : VTree.Matches mk t vt'
  kept : VTree.Kept vt vt'
  grows : h.length ≤ h'.length
  frame : ∀ x < h.length, x ∉ vt.addrs → h'[x]? = h[x]?
  addrs : ∀ x ∈ vt'.addrs, x ∈ vt.addrs ∨ h.length ≤ x

@[inherit_doc Updated]
structure UpdatedF (mk : E → A) (h : Heap A) (cs : VForest A) (t : LForest E) (h' : Heap A) (cs' : VForest A) : Prop where
  holds : cs'.Holds h'
  matched : VForest.Matches mk t cs'
  kept : VForest.Kept cs cs'
  grows : h.length ≤ h'.length
  frame : ∀ x < h.length, x ∉ cs.addrs → h'[x]? = h[x]?
  addrs : ∀ x ∈ cs'.addrs, x ∈ cs.addrs ∨ h.length ≤ x

mutual
theorem create_existing (mk0 mk : E → A) : ∀ (t : LTree E), t.Free → ∀ (h : Heap A) (vt : VTree A), vt.Holds h → VTree.Matches mk0 t vt →
    ∃ h' vt', create mk h t (some vt.val) = some (h', vt'.val) ∧ Updated mk h vt t h' vt'
  | .array e, _, h, .leaf a, _, hm => ⟨h, .leaf (mk e), rfl, trivial, rfl, trivial, Nat.le_refl _, fun _ _ _ => rfl, by simp [VTree.addrs]⟩
  | .array e, _, h, .node p cs, _, hm => by simp [VTree.Matches] at hm
  | .view full ls, _, h, .leaf a, _, hm => by simp [VTree.Matches] at hm
  | .view full ls, hf, h, .node p cs, hh, hm => by
    obtain ⟨⟨o, ho1, ho2⟩, hp, hcs⟩ := hh
    have hm' : VForest.Matches mk0 ls cs := hm
    have hn := Matches.names ls cs hm'
    have hplt : p < h.length := (List.getElem?_eq_some_iff.1 ho1).1
    by_cases he : cs.pairs = []
    · -- an empty view is made anew
      have hls : ls = .nil := by
        cases ls with
        | nil => rfl
        | cons n t rest => rw [he] at hn; simp [LForest.names] at hn
      have hcs' : cs = .nil := by
        cases cs with
        | nil => rfl
        | cons n t rest => simp [VForest.pairs] at he
      subst hls hcs'
      obtain ⟨o', q1, q2⟩ := mkView_ok ([] : List (Name × Val A)) (by simp) (by simp) ((full.map (fun e => Val.arr (mk e))).getD .none)
      refine ⟨h ++ [o'], .node h.length .nil, ?_, ⟨⟨o', by simp, q2⟩, by simp [VForest.addrs], trivial⟩, trivial,
        ⟨fun hc => absurd rfl hc, trivial⟩, by simp, fun x hx _ => get_append hx, ?_⟩
      · rw [create, VTree.val, existing]
        simp only [ho1]
        rw [if_pos (by rw [ho2.items]; rfl)]
        simp only [createAll]
        have : mkView (LForest.nil (E := E)).names ([] : List (Val A)) ((full.map (fun e => Val.arr (mk e))).getD .none) = some o' := q1
        rw [this]; rfl
      · intro x hx
        simp only [VTree.addrs, VForest.addrs, List.mem_singleton] at hx
        exact .inr (by omega)
    · obtain ⟨h', cs', r1, r2⟩ := createAll_existing mk0 mk p cs.pairs (hn ▸ hf.1) ls hf.2 h cs hcs hm' hp ⟨o, ho1, ho2⟩
        (fun n v hv => Dict.get?_of_mem (d := cs.pairs) (by show (cs.pairs.map Prod.fst).Nodup; rw [hn]; exact hf.1) hv)
      have hp' : h'[p]? = some o := by rw [r2.frame p hplt hp]; exact ho1
      have hn' := Matches.names ls cs' r2.matched
      obtain ⟨o', q1, q2⟩ := adjust_ok hp' ho2 cs'.pairs (by rw [hn', hn]) (hn ▸ hf.1)
        (fun n hm => (Free.names ls hf.2 n (hn ▸ hm)).1) ((full.map (fun e => Val.arr (mk e))).getD .none)
      have hpn : p ∉ cs'.addrs := by
        intro hx
        rcases r2.addrs p hx with hx | hx
        · exact hp hx
        · omega
      have hp'lt : p < h'.length := Nat.lt_of_lt_of_le hplt r2.grows
      refine ⟨h'.set p o', .node p cs', ?_, ⟨⟨o', by rw [List.getElem?_set_self hp'lt], q2⟩, hpn, ?_⟩, r2.matched,
        ⟨fun _ => rfl, r2.kept⟩, by rw [List.length_set]; exact r2.grows, ?_, ?_⟩
      · rw [create, VTree.val, existing]
        simp only [ho1]
        rw [if_neg (by rw [ho2.items]; simpa using he)]
        simp only [r1]
        rw [← hn', q1]; rfl
      · exact VForest.Holds.frame cs' r2.holds (fun x hx => List.getElem?_set_ne (fun e : p = x => hpn (e ▸ hx)))
      · intro x hx hxn
        have hxp : x ≠ p ∧ x ∉ cs.addrs := by simpa [VTree.addrs] using hxn
        rw [List.getElem?_set_ne (fun e => hxp.1 e.symm)]
        exact r2.frame x hx hxp.2
      · intro x hx
        rw [VTree.addrs, List.mem_cons] at hx
        rcases hx with rfl | hx
        · exact .inl (by simp [VTree.addrs])
        · rcases r2.addrs x hx with hx | hx
          · exact .inl (by simp [VTree.addrs, hx])
          · exact .inr hx
theorem createAll_existing (mk0 mk : E → A) (p : Nat) (ps : List (Name × Val A)) (hnd : (ps.map Prod.fst).Nodup) :
    ∀ (ls : LForest E), ls.Free → ∀ (h : Heap A) (cs : VForest A), cs.Holds h →
    VForest.Matches mk0 ls cs → p ∉ cs.addrs → (∃ o, h[p]? = some o ∧ ObjOk o ps) → (∀ n v, (n, v) ∈ cs.pairs → Dict.get? ps n = some v) →
    ∃ h' cs', createAll mk h ls (some p) = some (h', cs'.pairs.map Prod.snd) ∧ UpdatedF mk h cs ls h' cs'
  | .nil, _, h, .nil, _, _, _, _, _ => ⟨h, .nil, rfl, trivial, trivial, trivial, Nat.le_refl _, fun _ _ _ => rfl, by simp [VForest.addrs]⟩
  | .nil, _, h, .cons _ _ _, _, hm, _, _, _ => by simp [VForest.Matches] at hm
  | .cons _ _ _, _, h, .nil, _, hm, _, _, _ => by simp [VForest.Matches] at hm
  | .cons n t rest, hf, h, .cons m u rest', hh, hm, hp, ho, hv => by
    obtain ⟨rfl, hm1, hm2⟩ := hm
    obtain ⟨hh1, hh2, hh3⟩ := hh
    obtain ⟨o, ho1, ho2⟩ := ho
    have hp' : p ∉ u.addrs ∧ p ∉ rest'.addrs := by simpa [VForest.addrs] using hp
    have hplt : p < h.length := (List.getElem?_eq_some_iff.1 ho1).1
    have hget : Dict.get? ps n = some u.val := hv n u.val (by simp [VForest.pairs])
    obtain ⟨h', vt', r1, r2⟩ := create_existing mk0 mk t hf.2.2.1 h u hh1 hm1
    have hlt := VForest.Holds.lt rest' hh2
    have hrest : rest'.Holds h' := VForest.Holds.frame rest' hh2 (fun x hx => r2.frame x (hlt x hx) (fun hx' => hh3 x hx' hx))
    obtain ⟨h'', cs', s1, s2⟩ := createAll_existing mk0 mk p ps hnd rest hf.2.2.2 h' rest' hrest hm2 hp'.2
      ⟨o, by rw [r2.frame p hplt hp'.1]; exact ho1, ho2⟩ (fun k v hk => hv k v (by simp [VForest.pairs, hk]))
    have hltv := VTree.Holds.lt vt' r2.holds
    have hdis : ∀ x ∈ vt'.addrs, x ∉ rest'.addrs := by
      intro x hx hx'
      rcases r2.addrs x hx with hx | hx
      · exact hh3 x hx hx'
      · have := hlt x hx'; omega
    refine ⟨h'', .cons n vt' cs', ?_, ⟨?_, s2.holds, ?_⟩, ⟨rfl, r2.matched, s2.matched⟩, ⟨rfl, r2.kept, s2.kept⟩,
      Nat.le_trans r2.grows s2.grows, ?_, ?_⟩
    · rw [createAll, ho1, Option.bind_some, contains_ok ho2, decide_eq_true
        (show n ∈ ps.map Prod.fst from (Dict.mem_keys_iff ps n).2 (by rw [hget]; rfl))]
      dsimp only
      rw [getItem_ok ho1 ho2 n hf.2.1, hget]
      dsimp only
      rw [r1]
      simp only [s1]
      rfl
    · exact VTree.Holds.frame vt' r2.holds (fun x hx => s2.frame x (hltv x hx) (hdis x hx))
    · intro x hx hx'
      rcases s2.addrs x hx' with hx' | hx'
      · exact hdis x hx hx'
      · have := hltv x hx; omega
    · intro x hx hxn
      have hxn' : x ∉ u.addrs ∧ x ∉ rest'.addrs := by simpa [VForest.addrs] using hxn
      rw [s2.frame x (Nat.lt_of_lt_of_le hx r2.grows) hxn'.2, r2.frame x hx hxn'.1]
    · intro x hx
      rw [VForest.addrs, List.mem_append] at hx
      rcases hx with hx | hx
      · rcases r2.addrs x hx with hx | hx
        · exact .inl (by simp [VForest.addrs, hx])
        · exact .inr hx
      · rcases s2.addrs x hx with hx | hx
        · exact .inl (by simp [VForest.addrs, hx])
        · exact .inr (Nat.le_trans r2.grows hx)
end

end Verif.Access
