import Verif.NetSpec.Accept

/-!
# Networks in which every input has one source
-/

namespace Verif.NetSpec

open Verif.Structure Verif.Setup Verif.Instantiate Verif.Architecture Verif.Construction

/-- A connection between numbered layers. -/
structure NumConn where
  src : Nat
  out : Name
  dst : Nat
  inp : Name

/-- The same connection between layers with names. -/
def NumConn.named (nm : Nat → Name) (q : NumConn) : Connection := ⟨nm q.src, q.out, nm q.dst, q.inp⟩

theorem acyclic_rank {a : Arch} (r : Name → Nat) (h : ∀ c, HasConnection a c → r c.startLayer < r c.endLayer) : Acyclic a := by
  intro x hx
  have key : ∀ y, Relation.TransGen (Feeds a) x y → r x < r y := by
    intro y hy
    induction hy with
    | single hy => obtain ⟨c, hc, rfl, rfl⟩ := hy; exact h c hc
    | tail _ hy ih => obtain ⟨c, hc, rfl, rfl⟩ := hy; exact Nat.lt_trans ih (h c hc)
  exact Nat.lt_irrefl _ (key x hx)

theorem instantiates_single (kwargs : Name → Kwargs) (a : Arch) (hk : (Dict.keys a).Nodup) (wf : WellFormed a) (N : Nat)
    (nm : Nat → Name) (hp : (Dict.keys a).Perm ((List.range N).map nm)) (C : List NumConn)
    (hC : ∀ c, HasConnection a c ↔ ∃ q ∈ C, c = q.named nm) (hlt : ∀ q ∈ C, q.src < N ∧ q.dst < N)
    (huniq : ∀ q ∈ C, ∀ q' ∈ C, q.dst = q'.dst → q.inp = q'.inp → q = q')
    (rank : Nat → Nat) (hrank : ∀ q ∈ C, rank q.src < rank q.dst)
    (ty : Nat → Name) (hty : ∀ i < N, ∃ e, Dict.get? a (nm i) = some e ∧ e.type = .string (ty i))
    (ins : Nat → Dict Name Struct) (hnd : ∀ i < N, (Dict.keys (ins i)).Nodup) (hsort : ∀ i < N, sortShapes (ins i) = ins i)
    (hins : ∀ i < N, ∀ k, k ∈ Dict.keys (ins i) ↔ ∃ q ∈ C, q.dst = i ∧ q.inp = k)
    (P : Nat → Shapes → Prop)
    (hacc : ∀ i < N, ∃ sh, P i sh ∧ Accepts kwargs (ty i) (nm i) (kwargs (nm i)) (ins i) sh ∧
      ∀ q ∈ C, q.src = i → ∃ f c b, f ≠ [] ∧ Dict.get? sh.outs q.out = some ⟨tb f, c, b⟩ ∧
        Dict.get? (ins q.dst) q.inp = some (st f))
    (ord : Orders) (ho : ord.Ok) :
    ∃ layers, Instantiates (libEnv kwargs) ord a (.ok layers) ∧ (Dict.keys layers).Perm (Dict.keys a) ∧
      ∀ i < N, ∃ l, Dict.get? layers (nm i) = some l ∧ l.inShapes = ins i ∧ P i l.shapes := by
  classical
  have hinj : ∀ i < N, ∀ j < N, nm i = nm j → i = j := by
    intro i hi j hj he
    exact List.inj_on_of_nodup_map (hp.nodup_iff.1 hk) (List.mem_range.2 hi) (List.mem_range.2 hj) he
  obtain ⟨idx, hidx⟩ : ∃ idx : Name → Nat, ∀ i < N, idx (nm i) = i := by
    refine ⟨fun n => if h : ∃ i < N, nm i = n then h.choose else 0, ?_⟩
    intro i hi
    have h : ∃ j < N, nm j = nm i := ⟨i, hi, rfl⟩
    simp only [dif_pos h]
    exact hinj _ h.choose_spec.1 _ hi h.choose_spec.2
  have hmem : ∀ n, n ∈ Dict.keys a ↔ ∃ i < N, nm i = n := by
    intro n
    rw [hp.mem_iff, List.mem_map]
    simp
  haveI : Nonempty Shapes := ⟨⟨[], [], []⟩⟩
  choose! sh hP hA hO using hacc
  have hac : Acyclic a := by
    refine acyclic_rank (fun n => rank (idx n)) ?_
    intro c hc
    obtain ⟨q, hq, rfl⟩ := (hC c).1 hc
    simp only [NumConn.named, hidx _ (hlt q hq).1, hidx _ (hlt q hq).2]
    exact hrank q hq
  have hfits : ∀ n ∈ Dict.keys a, Fits (libEnv kwargs) a (fun n => ins (idx n)) (fun n => sh (idx n)) n := by
    intro n hn
    obtain ⟨i, hi, rfl⟩ := (hmem n).1 hn
    have hin : ∀ k, k ∈ Dict.keys (ins i) ↔ ∃ c, HasConnection a c ∧ c.endLayer = nm i ∧ c.inputName = k := by
      intro k
      rw [hins i hi]
      constructor
      · rintro ⟨q, hq, rfl, rfl⟩
        exact ⟨q.named nm, (hC _).2 ⟨q, hq, rfl⟩, rfl, rfl⟩
      · rintro ⟨c, hc, h1, rfl⟩
        obtain ⟨q, hq, rfl⟩ := (hC c).1 hc
        exact ⟨q, hq, hinj _ (hlt q hq).2 _ hi h1, rfl⟩
    constructor
    · obtain ⟨cls, h1, h2, h3⟩ := hA i hi
      obtain ⟨e, h4, h5⟩ := hty i hi
      simp only [hidx i hi]
      exact ⟨e, ty i, cls, h4, h5, h1, h2, h3⟩
    · simp only [hidx i hi]; exact hnd i hi
    · simp only [hidx i hi]; exact hsort i hi
    · simp only [hidx i hi]; exact hin
    · intro k s hs
      simp only [hidx i hi] at hs
      obtain ⟨q, hq, rfl, rfl⟩ := (hins i hi k).1 ((Dict.mem_keys_iff _ _).2 (by rw [hs]; rfl))
      obtain ⟨f, c, b, hf, h1, h2⟩ := hO q.src (hlt q hq).1 q hq rfl
      rw [hs] at h2
      cases h2
      refine ⟨[(q.named nm, ⟨tb f, c, b⟩)], by simp, ?_, ?_, combine_single f hf c b⟩
      · intro c'
        simp only [List.map_cons, List.map_nil, List.mem_singleton]
        constructor
        · rintro rfl
          exact ⟨(hC _).2 ⟨q, hq, rfl⟩, rfl, rfl⟩
        · rintro ⟨hc', h3, h4⟩
          obtain ⟨q', hq', rfl⟩ := (hC c').1 hc'
          rw [huniq q' hq' q hq (hinj _ (hlt q' hq').2 _ hi h3) h4]
      · intro e he
        rw [List.mem_singleton] at he
        subst he
        simp only [NumConn.named, hidx _ (hlt q hq).1]
        exact .inl h1
    · intro c hc hs
      obtain ⟨q, hq, rfl⟩ := (hC c).1 hc
      have : q.src = i := hinj _ (hlt q hq).1 _ hi hs
      obtain ⟨f, c, b, hf, h1, h2⟩ := hO q.src (hlt q hq).1 q hq rfl
      simp only [hidx i hi, NumConn.named]
      rw [← this]
      exact .inl ((Dict.mem_keys_iff _ _).2 (by rw [h1]; rfl))
  obtain ⟨layers, q1, q2, q3⟩ := C59_complete (libEnv kwargs) (libEnv_valid kwargs) (libEnv_plain kwargs) a hk wf hac ord ho
    _ _ hfits
  refine ⟨layers, q1, q2, ?_⟩
  intro i hi
  obtain ⟨l, h1, h2, h3⟩ := q3 (nm i) ((hmem _).2 ⟨i, hi, rfl⟩)
  simp only [hidx i hi] at h2 h3
  exact ⟨l, h1, h2, h3 ▸ hP i hi⟩

end Verif.NetSpec
