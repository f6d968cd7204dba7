import Verif.Memory.Slots

/-! The views of a layer whose numbers are in its arrays, and what follows for the network. -/

namespace Verif.Memory

open Verif.Structure Verif.Layout Verif.Buffers Verif.Network

section
variable {layers : List LayerInfo} {L : Layout} {T B : ℕ} {data : LayerInfo} {rest : List LayerInfo}
variable {I O K P : Type} {V : VLayer I O K P} {S : Slots I O K P} {l : LayerInfo}

theorem Ordered.mem (ho : Ordered layers data rest) (hl : l ∈ rest) : l ∈ layers := by rw [ho.all]; simp [hl]

theorem Ordered.ne_data (hL : Laid layers L) (ho : Ordered layers data rest) (hl : l ∈ rest) : l ≠ data := by
  rintro rfl
  have := hL.wf.names
  rw [ho.all] at this
  simp only [List.map_cons, List.nodup_cons, List.mem_map, not_exists, not_and] at this
  exact this.1 l hl rfl

theorem addr_out (hL : Laid layers L) (ho : Ordered layers data rest) (hl : l ∈ rest) (ok : S.Ok layers data l T B V) (a : O) :
    ∃ s, Home layers L T B l .out (S.o a).array s ((S.o a).addr (netOf layers L) T B l.name) ∧
      Main layers L T B l .out (S.o a).array ((S.o a).addr (netOf layers L) T B l.name) := by
  obtain ⟨h1, s, h2, h3⟩ := ok.outs a
  have hr := hL.row_out (T := T) (B := B) (ho.mem hl) h2
  have hlt := lt_of_lt_of_le h3 (mainSize_le hr)
  refine ⟨s, ⟨h2, ?_⟩, ?_⟩
  · unfold Slot.addr; rw [h1]; exact hr.mem hlt
  · unfold Main Slot.addr; rw [h1]; exact (hr.mem_main hlt).2 h3

theorem addr_own (hL : Laid layers L) (ho : Ordered layers data rest) (hl : l ∈ rest) (ok : S.Ok layers data l T B V) (a : K) :
    (∃ s, Home layers L T B l .int (S.k a).array s ((S.k a).addr (netOf layers L) T B l.name) ∧
      Main layers L T B l .int (S.k a).array ((S.k a).addr (netOf layers L) T B l.name) ∧ s.backwardOnly = false ∧
        (S.k a).cat = str "internals") ∨
    ((∀ b, S.o b ≠ S.k a) ∧ ∃ s, Home layers L T B l .out (S.k a).array s ((S.k a).addr (netOf layers L) T B l.name) ∧
      Main layers L T B l .out (S.k a).array ((S.k a).addr (netOf layers L) T B l.name) ∧ (S.k a).cat = str "outputs") := by
  rcases ok.own a with ⟨h1, s, h2, h3, h4⟩ | ⟨h1, h4, s, h2, h3⟩
  · have hr := hL.row_int (T := T) (B := B) (ho.mem hl) h2
    have hlt := lt_of_lt_of_le h3 (mainSize_le hr)
    refine Or.inl ⟨s, ⟨h2, ?_⟩, ?_, h4, h1⟩
    · unfold Slot.addr; rw [h1]; exact hr.mem hlt
    · unfold Main Slot.addr; rw [h1]; exact (hr.mem_main hlt).2 h3
  · have hr := hL.row_out (T := T) (B := B) (ho.mem hl) h2
    have hlt := lt_of_lt_of_le h3 (mainSize_le hr)
    refine Or.inr ⟨h4, s, ⟨h2, ?_⟩, ?_, h1⟩
    · unfold Slot.addr; rw [h1]; exact hr.mem hlt
    · unfold Main Slot.addr; rw [h1]; exact (hr.mem_main hlt).2 h3

theorem addr_in (hL : Laid layers L) (ho : Ordered layers data rest) (hl : l ∈ rest) {q : Slot} (h1 : q.cat = str "inputs")
    {s : Struct} (h2 : (q.array, s) ∈ l.inShapes) (h3 : q.pos < size s T B) :
    q.addr (netOf layers L) T B l.name ∈ cells (netOf layers L) T B (path l.name (str "inputs") q.array) := by
  unfold Slot.addr
  rw [h1]
  exact (hL.row_in (ho.mem hl) h2).mem h3

theorem addr_par (hL : Laid layers L) (ho : Ordered layers data rest) (hl : l ∈ rest) {q : Slot} (h1 : q.cat = str "parameters")
    {s : Struct} (h2 : (q.array, s) ∈ l.paramShapes) (h3 : q.pos < size s T B) :
    Home layers L T B l .par q.array s (q.addr (netOf layers L) T B l.name) := by
  refine ⟨h2, ?_⟩
  unfold Slot.addr
  rw [h1]
  exact (hL.row_par (ho.mem hl) h2).mem h3

/-- Addresses of inputs are not written by the layer itself. -/
theorem addr_in_ne (hL : Laid layers L) (ho : Ordered layers data rest) (hl : l ∈ rest) {x : Name} (hx : x ∈ l.inShapes.map Prod.fst)
    {a : ℕ} (ha : a ∈ cells (netOf layers L) T B (path l.name (str "inputs") x)) :
    (∀ y s, ¬ Home layers L T B l .out y s a) ∧ ∀ y s, ¬ Home layers L T B l .int y s a := by
  obtain ⟨k, hk, o, hok, e1, -, ⟨h1, s', h2, -⟩ | ⟨h1, s', h2⟩⟩ := input_source hL ho hl hx ha
  · refine ⟨fun y s h => ?_, fun y s h => ?_⟩
    · obtain ⟨rfl, -⟩ := Home.inj hL (ho.mem hl) hk h h2
      exact ho.noLoop l hl o hok h1 e1
    · exact absurd (Home.inj hL (ho.mem hl) hk h h2).2.1 (by simp)
  · exact ⟨fun y s h => absurd (Home.inj hL (ho.mem hl) hk h h2).2.1 (by simp),
      fun y s h => absurd (Home.inj hL (ho.mem hl) hk h h2).2.1 (by simp)⟩

theorem addr_ins_ne (hL : Laid layers L) (ho : Ordered layers data rest) (hl : l ∈ rest) (ok : S.Ok layers data l T B V) (a : I) :
    (∀ y s, ¬ Home layers L T B l .out y s ((S.i a).addr (netOf layers L) T B l.name)) ∧
    ∀ y s, ¬ Home layers L T B l .int y s ((S.i a).addr (netOf layers L) T B l.name) := by
  rcases ok.ins a with ⟨h1, s, h2, h3⟩ | ⟨h1, s, h2, h3⟩
  · exact addr_in_ne hL ho hl (List.mem_map.2 ⟨_, h2, rfl⟩) (addr_in hL ho hl h1 h2 h3)
  · have := addr_par hL ho hl h1 h2 h3
    exact ⟨fun y s h => absurd (Home.inj hL (ho.mem hl) (ho.mem hl) h this).2.1 (by simp),
      fun y s h => absurd (Home.inj hL (ho.mem hl) (ho.mem hl) h this).2.1 (by simp)⟩

/-- Where what is read without computing deltas lies. -/
theorem addr_fixed (hL : Laid layers L) (ho : Ordered layers data rest) (hl : l ∈ rest) (ok : S.Ok layers data l T B V) (a : P) :
    let c := fixedAddr (netOf layers L) T B l.name (S.p a)
    (∃ x s, Home layers L T B data .out x s c ∧ Main layers L T B data .out x c) ∨
    (∃ x s, Home layers L T B l .par x s c) ∨
    (∃ x s, Home layers L T B l .out x s c ∧ ¬ Main layers L T B l .out x c) ∨
    (∃ x s, Home layers L T B l .int x s c ∧ ¬ Main layers L T B l .int x c ∧ s.backwardOnly = false) ∨
    (totalSizeSlicesShapes (netOf layers L).hubs T B).1 ≤ c := by
  intro c
  cases hp : S.p a with
  | inr j =>
    have : c = (totalSizeSlicesShapes (netOf layers L).hubs T B).1 + j := by simp [c, fixedAddr, hp]
    exact Or.inr (Or.inr (Or.inr (Or.inr (by omega))))
  | inl q =>
    have hc : c = q.addr (netOf layers L) T B l.name := by simp [c, fixedAddr, hp]
    rcases ok.fixed a q hp with ⟨h1, ⟨s, h2, h3⟩, h4⟩ | ⟨h1, s, h2, h3⟩ | ⟨h1, s, h2, h3, h4⟩ | ⟨h1, s, h2, h3, h4, h5⟩
    · left
      have hm := addr_in hL ho hl h1 h2 h3
      obtain ⟨k, hk, o, hok, e1, e2, h⟩ := input_source hL ho hl (List.mem_map.2 ⟨_, h2, rfl⟩) hm
      obtain ⟨rfl, hkind⟩ := h4 k hk o hok e1 e2
      rcases h with ⟨-, s', h6, h7⟩ | ⟨h6, -⟩
      · rw [hc]; exact ⟨_, s', h6, h7⟩
      · rw [hkind] at h6; cases h6
    · right; left
      rw [hc]; exact ⟨_, s, addr_par hL ho hl h1 h2 h3⟩
    · right; right; left
      have hr := hL.row_out (T := T) (B := B) (ho.mem hl) h2
      refine ⟨q.array, s, ⟨h2, ?_⟩, ?_⟩
      · rw [hc]; unfold Slot.addr; rw [h1]; exact hr.mem h4
      · rw [hc]; unfold Main Slot.addr; rw [h1]
        exact fun h => absurd ((hr.mem_main h4).1 h) (by omega)
    · right; right; right; left
      have hr := hL.row_int (T := T) (B := B) (ho.mem hl) h2
      refine ⟨q.array, s, ⟨h2, ?_⟩, ?_, h5⟩
      · rw [hc]; unfold Slot.addr; rw [h1]; exact hr.mem h4
      · rw [hc]; unfold Main Slot.addr; rw [h1]
        exact fun h => absurd ((hr.mem_main h4).1 h) (by omega)

theorem out_fixed_ne (hL : Laid layers L) (ho : Ordered layers data rest) (hl : l ∈ rest) (ok : S.Ok layers data l T B V)
    {x : Name} {s : Struct} {c : ℕ} (h : Home layers L T B l .out x s c) (hm : Main layers L T B l .out x c) (b : P) :
    c ≠ fixedAddr (netOf layers L) T B l.name (S.p b) := by
  have hd : data ∈ layers := by rw [ho.all]; simp
  intro he
  rcases addr_fixed hL ho hl ok b with ⟨x', s', h', -⟩ | ⟨x', s', h'⟩ | ⟨x', s', h', hm'⟩ | ⟨x', s', h', -⟩ | h'
  · rw [← he] at h'; exact ho.ne_data hL hl (Home.inj hL (ho.mem hl) hd h h').1
  · rw [← he] at h'; exact absurd (Home.inj hL (ho.mem hl) (ho.mem hl) h h').2.1 (by simp)
  · rw [← he] at h' hm'
    obtain ⟨-, -, rfl⟩ := Home.inj hL (ho.mem hl) (ho.mem hl) h h'
    exact hm' hm
  · rw [← he] at h'; exact absurd (Home.inj hL (ho.mem hl) (ho.mem hl) h h').2.1 (by simp)
  · rw [← he] at h'; exact absurd h.lt_total (by omega)

theorem int_fixed_ne (hL : Laid layers L) (ho : Ordered layers data rest) (hl : l ∈ rest) (ok : S.Ok layers data l T B V)
    {x : Name} {s : Struct} {c : ℕ} (h : Home layers L T B l .int x s c) (hm : Main layers L T B l .int x c) (b : P) :
    c ≠ fixedAddr (netOf layers L) T B l.name (S.p b) := by
  have hd : data ∈ layers := by rw [ho.all]; simp
  intro he
  rcases addr_fixed hL ho hl ok b with ⟨x', s', h', -⟩ | ⟨x', s', h'⟩ | ⟨x', s', h', hm'⟩ | ⟨x', s', h', hm', -⟩ | h'
  · rw [← he] at h'; exact absurd (Home.inj hL (ho.mem hl) hd h h').2.1 (by simp)
  · rw [← he] at h'; exact absurd (Home.inj hL (ho.mem hl) (ho.mem hl) h h').2.1 (by simp)
  · rw [← he] at h'; exact absurd (Home.inj hL (ho.mem hl) (ho.mem hl) h h').2.1 (by simp)
  · rw [← he] at h' hm'
    obtain ⟨-, -, rfl⟩ := Home.inj hL (ho.mem hl) (ho.mem hl) h h'
    exact hm' hm
  · rw [← he] at h'; exact absurd h.lt_total (by omega)

/-- Different entries of outputs and internals have different addresses. -/
theorem out_slot_inj (hL : Laid layers L) (ho : Ordered layers data rest) (hl : l ∈ rest) {q q' : Slot} {s s' : Struct}
    (h1 : q.cat = str "outputs") (h2 : (q.array, s) ∈ l.outShapes) (h3 : q.pos < mainSize s T B)
    (h1' : q'.cat = str "outputs") (h2' : (q'.array, s') ∈ l.outShapes) (h3' : q'.pos < mainSize s' T B)
    (he : q.addr (netOf layers L) T B l.name = q'.addr (netOf layers L) T B l.name) : q = q' := by
  have hr := hL.row_out (T := T) (B := B) (ho.mem hl) h2
  have hr' := hL.row_out (T := T) (B := B) (ho.mem hl) h2'
  have hlt := lt_of_lt_of_le h3 (mainSize_le hr)
  have hlt' := lt_of_lt_of_le h3' (mainSize_le hr')
  obtain ⟨c, x, j⟩ := q
  obtain ⟨c', x', j'⟩ := q'
  simp only at *
  subst h1 h1'
  unfold Slot.addr at he
  simp only at he
  have H : Home layers L T B l .out x s ((cells (netOf layers L) T B (path l.name (str "outputs") x)).getD j 0) := ⟨h2, hr.mem hlt⟩
  have H' : Home layers L T B l .out x' s' ((cells (netOf layers L) T B (path l.name (str "outputs") x')).getD j' 0) := ⟨h2', hr'.mem hlt'⟩
  rw [← he] at H'
  obtain ⟨-, -, rfl⟩ := Home.inj hL (ho.mem hl) (ho.mem hl) H H'
  obtain rfl : s = s' := by
    have := Dict.get?_of_mem (hL.wf.outNodup l (ho.mem hl)) h2
    rw [Dict.get?_of_mem (hL.wf.outNodup l (ho.mem hl)) h2'] at this
    exact (Option.some.inj this).symm
  rw [hr.inj hlt hlt' he]

theorem int_slot_inj (hL : Laid layers L) (ho : Ordered layers data rest) (hl : l ∈ rest) {q q' : Slot} {s s' : Struct}
    (h1 : q.cat = str "internals") (h2 : (q.array, s) ∈ l.internalShapes) (h3 : q.pos < mainSize s T B)
    (h1' : q'.cat = str "internals") (h2' : (q'.array, s') ∈ l.internalShapes) (h3' : q'.pos < mainSize s' T B)
    (he : q.addr (netOf layers L) T B l.name = q'.addr (netOf layers L) T B l.name) : q = q' := by
  have hr := hL.row_int (T := T) (B := B) (ho.mem hl) h2
  have hr' := hL.row_int (T := T) (B := B) (ho.mem hl) h2'
  have hlt := lt_of_lt_of_le h3 (mainSize_le hr)
  have hlt' := lt_of_lt_of_le h3' (mainSize_le hr')
  obtain ⟨c, x, j⟩ := q
  obtain ⟨c', x', j'⟩ := q'
  simp only at *
  subst h1 h1'
  unfold Slot.addr at he
  simp only at he
  have H : Home layers L T B l .int x s ((cells (netOf layers L) T B (path l.name (str "internals") x)).getD j 0) := ⟨h2, hr.mem hlt⟩
  have H' : Home layers L T B l .int x' s' ((cells (netOf layers L) T B (path l.name (str "internals") x')).getD j' 0) := ⟨h2', hr'.mem hlt'⟩
  rw [← he] at H'
  obtain ⟨-, -, rfl⟩ := Home.inj hL (ho.mem hl) (ho.mem hl) H H'
  obtain rfl := internal_eq hL.wf (ho.mem hl) h2 h2'
  rw [hr.inj hlt hlt' he]

theorem par_slot_inj (hL : Laid layers L) (ho : Ordered layers data rest) (hl : l ∈ rest) {q q' : Slot} {s s' : Struct}
    (h1 : q.cat = str "parameters") (h2 : (q.array, s) ∈ l.paramShapes) (h3 : q.pos < size s T B)
    (h1' : q'.cat = str "parameters") (h2' : (q'.array, s') ∈ l.paramShapes) (h3' : q'.pos < size s' T B)
    (he : q.addr (netOf layers L) T B l.name = q'.addr (netOf layers L) T B l.name) : q = q' := by
  have hr := hL.row_par (T := T) (B := B) (ho.mem hl) h2
  have hr' := hL.row_par (T := T) (B := B) (ho.mem hl) h2'
  obtain ⟨c, x, j⟩ := q
  obtain ⟨c', x', j'⟩ := q'
  simp only at *
  subst h1 h1'
  unfold Slot.addr at he
  simp only at he
  have H : Home layers L T B l .par x s ((cells (netOf layers L) T B (path l.name (str "parameters") x)).getD j 0) := ⟨h2, hr.mem h3⟩
  have H' : Home layers L T B l .par x' s' ((cells (netOf layers L) T B (path l.name (str "parameters") x')).getD j' 0) := ⟨h2', hr'.mem h3'⟩
  rw [← he] at H'
  obtain ⟨-, -, rfl⟩ := Home.inj hL (ho.mem hl) (ho.mem hl) H H'
  obtain rfl : s = s' := by
    have := Dict.get?_of_mem (hL.wf.paramNodup l (ho.mem hl)) h2
    rw [Dict.get?_of_mem (hL.wf.paramNodup l (ho.mem hl)) h2'] at this
    exact (Option.some.inj this).symm
  rw [hr.inj h3 h3' he]

theorem in_slot_inj (hL : Laid layers L) (ho : Ordered layers data rest) (hu : Unmixed layers) (hl : l ∈ rest) {q q' : Slot}
    {s s' : Struct} (h1 : q.cat = str "inputs") (h2 : (q.array, s) ∈ l.inShapes) (h3 : q.pos < size s T B)
    (h1' : q'.cat = str "inputs") (h2' : (q'.array, s') ∈ l.inShapes) (h3' : q'.pos < size s' T B)
    (he : q.addr (netOf layers L) T B l.name = q'.addr (netOf layers L) T B l.name) : q = q' := by
  have hr := hL.row_in (T := T) (B := B) (ho.mem hl) h2
  have hr' := hL.row_in (T := T) (B := B) (ho.mem hl) h2'
  have hm := addr_in hL ho hl h1 h2 h3
  have hm' := addr_in hL ho hl h1' h2' h3'
  obtain ⟨c, x, j⟩ := q
  obtain ⟨c', x', j'⟩ := q'
  simp only at *
  subst h1 h1'
  unfold Slot.addr at he hm hm'
  simp only at he hm hm'
  obtain ⟨k, hk, o, hok, e1, e2, h⟩ := input_source hL ho hl (List.mem_map.2 ⟨_, h2, rfl⟩) hm
  obtain ⟨k', hk', o', hok', e1', e2', h'⟩ := input_source hL ho hl (List.mem_map.2 ⟨_, h2', rfl⟩) hm'
  rw [← he] at h'
  have hx : x = x' := by
    rcases h with ⟨g1, t, g2, -⟩ | ⟨g1, t, g2⟩ <;> rcases h' with ⟨g1', t', g2', -⟩ | ⟨g1', t', g2'⟩
    · obtain ⟨rfl, -, hb⟩ := Home.inj hL hk hk' g2 g2'
      exact e2.symm.trans ((hu.once k hk o hok o' hok' (g1.trans g1'.symm) hb (e1.trans e1'.symm)).trans e2')
    · exact absurd (Home.inj hL hk hk' g2 g2').2.1 (by simp)
    · exact absurd (Home.inj hL hk hk' g2 g2').2.1 (by simp)
    · obtain ⟨rfl, -, hb⟩ := Home.inj hL hk hk' g2 g2'
      exact e2.symm.trans ((hu.once k hk o hok o' hok' (g1.trans g1'.symm) hb (e1.trans e1'.symm)).trans e2')
  subst hx
  obtain rfl : s = s' := by
    have := Dict.get?_of_mem (hL.wf.inNodup l (ho.mem hl)) h2
    rw [Dict.get?_of_mem (hL.wf.inNodup l (ho.mem hl)) h2'] at this
    exact (Option.some.inj this).symm
  rw [hr.inj h3 h3' he]

theorem in_par_ne (hL : Laid layers L) (ho : Ordered layers data rest) (hu : Unmixed layers) (hl : l ∈ rest) {q q' : Slot}
    {s s' : Struct} (h1 : q.cat = str "inputs") (h2 : (q.array, s) ∈ l.inShapes) (h3 : q.pos < size s T B)
    (h1' : q'.cat = str "parameters") (h2' : (q'.array, s') ∈ l.paramShapes) (h3' : q'.pos < size s' T B) :
    q.addr (netOf layers L) T B l.name ≠ q'.addr (netOf layers L) T B l.name := by
  intro he
  have hm := addr_in hL ho hl h1 h2 h3
  have hm' := addr_par hL ho hl h1' h2' h3'
  rw [← he] at hm'
  obtain ⟨k, hk, o, hok, e1, e2, ⟨g1, t, g2, -⟩ | ⟨g1, t, g2⟩⟩ := input_source hL ho hl (List.mem_map.2 ⟨_, h2, rfl⟩) hm
  · exact absurd (Home.inj hL hk (ho.mem hl) g2 hm').2.1 (by simp)
  · obtain ⟨rfl, -, -⟩ := Home.inj hL hk (ho.mem hl) g2 hm'
    exact hu.apart k hk o hok g1 e1

/-- The views of the layer. -/
def Slots.Ok.views (ok : S.Ok layers data l T B V) (hL : Laid layers L) (ho : Ordered layers data rest) (hu : Unmixed layers)
    (hl : l ∈ rest) : Views ℕ I O K P where
  i := fun a => (S.i a).addr (netOf layers L) T B l.name
  o := fun a => (S.o a).addr (netOf layers L) T B l.name
  k := fun a => (S.k a).addr (netOf layers L) T B l.name
  p := fun a => fixedAddr (netOf layers L) T B l.name (S.p a)
  i_inj := by
    intro a b he
    apply ok.i_inj
    rcases ok.ins a with ⟨h1, s, h2, h3⟩ | ⟨h1, s, h2, h3⟩ <;> rcases ok.ins b with ⟨h1', s', h2', h3'⟩ | ⟨h1', s', h2', h3'⟩
    · exact in_slot_inj hL ho hu hl h1 h2 h3 h1' h2' h3' he
    · exact absurd he (in_par_ne hL ho hu hl h1 h2 h3 h1' h2' h3')
    · exact absurd he.symm (in_par_ne hL ho hu hl h1' h2' h3' h1 h2 h3)
    · exact par_slot_inj hL ho hl h1 h2 h3 h1' h2' h3' he
  o_inj := by
    intro a b he
    apply ok.o_inj
    obtain ⟨h1, s, h2, h3⟩ := ok.outs a
    obtain ⟨h1', s', h2', h3'⟩ := ok.outs b
    exact out_slot_inj hL ho hl h1 h2 h3 h1' h2' h3' he
  k_inj := by
    intro a b he
    apply ok.k_inj
    simp only at he
    have hne : ∀ a b, (S.k a).cat = str "internals" → (S.k b).cat = str "outputs" →
        (S.k a).addr (netOf layers L) T B l.name ≠ (S.k b).addr (netOf layers L) T B l.name := by
      intro a b ha hb he
      rcases addr_own hL ho hl ok a with ⟨u, hu1, -⟩ | ⟨-, u, -, -, hc⟩
      · rcases addr_own hL ho hl ok b with ⟨w, -, -, -, hc⟩ | ⟨-, w, hw1, -⟩
        · rw [hb] at hc; exact absurd hc (by decide)
        · rw [← he] at hw1; exact absurd (Home.inj hL (ho.mem hl) (ho.mem hl) hu1 hw1).2.1 (by simp)
      · rw [ha] at hc; exact absurd hc (by decide)
    rcases ok.own a with ⟨h1, s, h2, h3, h4⟩ | ⟨h1, h4, s, h2, h3⟩ <;>
      rcases ok.own b with ⟨h1', s', h2', h3', h4'⟩ | ⟨h1', h4', s', h2', h3'⟩
    · exact int_slot_inj hL ho hl h1 h2 h3 h1' h2' h3' he
    · exact absurd he (hne a b h1 h1')
    · exact absurd he.symm (hne b a h1' h1)
    · exact out_slot_inj hL ho hl h1 h2 h3 h1' h2' h3' he
  o_i := by
    intro a b he
    obtain ⟨s, h, -⟩ := addr_out hL ho hl ok a
    rw [he] at h
    exact (addr_ins_ne hL ho hl ok b).1 _ _ h
  k_i := by
    intro a b he
    rcases addr_own hL ho hl ok a with ⟨s, h, -⟩ | ⟨-, s, h, -⟩
    · rw [he] at h
      exact (addr_ins_ne hL ho hl ok b).2 _ _ h
    · rw [he] at h
      exact (addr_ins_ne hL ho hl ok b).1 _ _ h
  k_o := by
    intro a b he
    obtain ⟨s', h', -⟩ := addr_out hL ho hl ok b
    rcases ok.own a with ⟨h1, t, h2, h3, h4⟩ | ⟨h1, h4, t, h2, h3⟩
    · rcases addr_own hL ho hl ok a with ⟨s, h, -⟩ | ⟨-, s, h, -, hc⟩
      · rw [he] at h
        exact absurd (Home.inj hL (ho.mem hl) (ho.mem hl) h h').2.1 (by simp)
      · rw [h1] at hc; exact absurd hc (by decide)
    · obtain ⟨h1', s', h2', h3'⟩ := ok.outs b
      exact h4 b (out_slot_inj hL ho hl h1 h2 h3 h1' h2' h3' he).symm
  o_p := by
    intro a b
    obtain ⟨s, h, hm⟩ := addr_out hL ho hl ok a
    exact out_fixed_ne hL ho hl ok h hm b
  k_p := by
    intro a b
    rcases addr_own hL ho hl ok a with ⟨s, h, hm, -⟩ | ⟨-, s, h, hm, -⟩
    · exact int_fixed_ne hL ho hl ok h hm b
    · exact out_fixed_ne hL ho hl ok h hm b

variable [Fintype I] [Fintype O]

/-- The layer keeps to its arrays. -/
theorem Slots.Ok.site (ok : S.Ok layers data l T B V) (hL : Laid layers L) (ho : Ordered layers data rest) (hu : Unmixed layers)
    (hl : l ∈ rest) (dual : ℕ → ℕ) : Site layers L T B data l (atViews V (ok.views hL ho hu hl) dual) where
  ins := by
    intro c hc
    obtain ⟨a, rfl⟩ := (mem_ins V (ok.views hL ho hu hl)).1 hc
    rcases ok.ins a with ⟨h1, s, h2, h3⟩ | ⟨h1, s, h2, h3⟩
    · exact Or.inl ⟨_, List.mem_map.2 ⟨_, h2, rfl⟩, addr_in hL ho hl h1 h2 h3⟩
    · exact Or.inr ⟨_, s, addr_par hL ho hl h1 h2 h3⟩
  outs := by
    intro c hc
    obtain ⟨a, rfl⟩ := (mem_outs V (ok.views hL ho hu hl)).1 hc
    exact ⟨_, addr_out hL ho hl ok a⟩
  outsAll := by
    intro o hol hk c hc
    have hx : o.buffer ∈ l.outShapes.map Prod.fst := by
      have := hL.wf.starts l (ho.mem hl) o hol
      rw [hk] at this
      exact this
    obtain ⟨s, hs⟩ := shape_of hx
    have hr := hL.row_out (T := T) (B := B) (ho.mem hl) hs
    obtain ⟨j, hj, rfl⟩ := List.getElem_of_mem hc
    obtain ⟨b, hb⟩ := ok.outsAll o hol hk s hs j (by rw [← hr.mainLength]; exact hj)
    refine (mem_outs V (ok.views hL ho hu hl)).2 ⟨b, ?_⟩
    show (S.o b).addr (netOf layers L) T B l.name = _
    rw [hb]
    unfold Slot.addr
    have hj' : j < (cells (netOf layers L) T B (path l.name (str "outputs") o.buffer)).length :=
      lt_of_lt_of_le hj hr.main.length_le
    rw [List.getD_eq_getElem _ _ hj']
    exact (hr.main.getElem hj).symm
  own := by
    rintro c ⟨a, rfl⟩
    rcases addr_own hL ho hl ok a with ⟨s, h, hm, -⟩ | ⟨hn, s, h, hm, -⟩
    · exact Or.inl ⟨_, s, h, Or.inl hm⟩
    · refine Or.inr (Or.inr ⟨?_, _, s, h, hm⟩)
      intro hc
      obtain ⟨b, hb⟩ := (mem_outs V (ok.views hL ho hu hl)).1 hc
      exact (ok.views hL ho hu hl).k_o _ _ hb.symm
  fixed := by
    rintro c ⟨a, rfl⟩
    exact addr_fixed hL ho hl ok a
  losses := by
    intro c hc
    obtain ⟨hlo, b, rfl⟩ := (mem_losses V (ok.views hL ho hu hl)).1 hc
    refine ⟨(mem_outs V (ok.views hL ho hu hl)).2 ⟨b, rfl⟩, ?_⟩
    intro o hol hk hm
    obtain ⟨s, h, -⟩ := addr_out hL ho hl ok b
    have hx : o.buffer ∈ l.outShapes.map Prod.fst := by
      have := hL.wf.starts l (ho.mem hl) o hol
      rw [hk] at this
      exact this
    obtain ⟨s', hs'⟩ := shape_of hx
    have h' : Home layers L T B l .out o.buffer s' _ := Home.of_main (c := .out) hL hs' hm
    exact ok.loss hlo o hol hk b (Home.inj hL (ho.mem hl) (ho.mem hl) h h').2.2
  over := by
    intro c hc
    obtain ⟨a, ha, rfl⟩ := (mem_over V (ok.views hL ho hu hl)).1 hc
    refine ⟨(mem_ins V (ok.views hL ho hu hl)).2 ⟨a, rfl⟩, ?_⟩
    obtain ⟨hcat, hno⟩ := ok.over a ha
    rcases ok.ins a with ⟨h1, s, h2, h3⟩ | ⟨h1, s, h2, h3⟩
    · rw [hcat] at h1; exact absurd h1 (by decide)
    · exact ⟨_, s, addr_par hL ho hl h1 h2 h3, hno⟩

/-- What the layer keeps is not cleared before the backward pass. -/
theorem Slots.Ok.own_back (ok : S.Ok layers data l T B V) (hL : Laid layers L) (ho : Ordered layers data rest) (hu : Unmixed layers)
    (hl : l ∈ rest) (a : K) : (ok.views hL ho hu hl).k a ∉ backCells (netOf layers L) T B := by
  intro hb
  rcases addr_own hL ho hl ok a with ⟨s, h, hm, hbk, -⟩ | ⟨hn, s, h, hm, -⟩
  · have := (Home.back_iff hL (ho.mem hl) h).1 hb
    simp [Src.back, hbk] at this
  · have := (Home.back_iff hL (ho.mem hl) h).1 hb
    have hf := ho.outs l (ho.mem hl) _ h.1
    simp only [Src.back] at this
    rw [hf] at this
    cases this

end

/-- Layers differentiate at the memory they see if they do wherever what they read is as after the forward pass. -/
theorem allDifferentiate_of {dual : ℕ → ℕ} {back : Set ℕ} (ms : List MLayer) (hh : ∀ m ∈ ms, m.HonestForward)
    (hself : ∀ m ∈ ms, ∀ a, a ∈ m.ins ∨ a ∈ m.fixed → ¬ (a ∈ m.outs ∨ a ∈ m.own))
    (hp : ms.Pairwise (fun m n => ∀ a, a ∈ m.ins ∨ a ∈ m.fixed → ¬ (a ∈ n.outs ∨ a ∈ n.own))) (s : Mem)
    (hR : ∀ m ∈ ms, ∀ m0 : Mem, (∀ a, a ∈ m.ins ∨ a ∈ m.fixed → m0 a = forward ms s a) → m.Differentiates dual back m0) :
    AllDifferentiate dual back ms s := by
  have hstay : ∀ (ns : List MLayer), (∀ m ∈ ns, m.HonestForward) → ∀ (s : Mem) (a : ℕ), (∀ n ∈ ns, ¬ (a ∈ n.outs ∨ a ∈ n.own)) →
      forward ns s a = s a := by
    intro ns
    induction ns with
    | nil => intros; rfl
    | cons n ns ih =>
      intro h s a ha
      have h1 := ih (fun m hm => h m (by simp [hm])) (n.fwd s) a (fun m hm => ha m (by simp [hm]))
      have h2 := ha n (by simp)
      push Not at h2
      have h3 := (h n (by simp)).fwd_writes s a h2.1 h2.2
      show forward ns (n.fwd s) a = s a
      rw [h1, h3]
  induction ms generalizing s with
  | nil => trivial
  | cons m ms ih =>
    rw [List.pairwise_cons] at hp
    refine ⟨?_, ?_⟩
    · refine hR m (by simp) s ?_
      intro a ha
      refine (hstay (m :: ms) hh s a ?_).symm
      intro n hn
      rcases List.mem_cons.1 hn with rfl | hn
      · exact hself n (by simp) a ha
      · exact hp.1 n hn a ha
    · exact ih (fun n hn => hh n (by simp [hn])) (fun n hn => hself n (by simp [hn])) hp.2 _
        (fun n hn m0 h => hR n (by simp [hn]) m0 h)

end Verif.Memory
