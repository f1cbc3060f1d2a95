import Mathlib.Tactic.Tauto
import Verif.Proofs.WasmTree
import Verif.Props.Wasm
/-
C86: the functions of `js/wasm` that nothing calls do what their names say.
-/
namespace AOB.Wasm
variable {s s' : Slab} {t : Tree} {free : List Nat} {k : Nat} {o : Order Bytes}

theorem bits_unique : ∀ {t : Tree}, t.Bits → (t.orders.map Order.id).Nodup := by
  intro t
  induction t with
  | leaf h o => intro _; simp [Tree.orders]
  | inner h p kk l r ihl ihr =>
    rintro ⟨_, b0, b1, bl, br⟩
    simp only [Tree.orders, List.map_append]
    refine List.nodup_append.2 ⟨ihl bl, ihr br, ?_⟩
    intro a ha b hb hab
    obtain ⟨x, hx, rfl⟩ := List.mem_map.1 ha
    obtain ⟨y, hy, rfl⟩ := List.mem_map.1 hb
    have h0 := b0 x hx
    rw [hab, b1 y hy] at h0
    cases h0

theorem orders_ne (t : Tree) : t.orders ≠ [] := by
  induction t with
  | leaf h o => simp [Tree.orders]
  | inner h p kk l r ihl ihr => simp [Tree.orders, ihl]

theorem same_of_id {l : List (Order Bytes)} (h : (l.map Order.id).Nodup) {x y : Order Bytes} (hx : x ∈ l) (hy : y ∈ l)
    (hid : x.id = y.id) : x = y := by
  induction l with
  | nil => cases hx
  | cons z l ih =>
    rw [List.map_cons, List.nodup_cons] at h
    rcases List.mem_cons.1 hx with e | hx' <;> rcases List.mem_cons.1 hy with e' | hy'
    · rw [e, e']
    · exact absurd (List.mem_map.2 ⟨y, hy', by rw [← hid, e]⟩) h.1
    · exact absurd (List.mem_map.2 ⟨x, hx', by rw [hid, e']⟩) h.1
    · exact ih h.2 hx' hy'

theorem filter_length {l : List (Order Bytes)} (h : (l.map Order.id).Nodup) (ho : o ∈ l) :
    (l.filter (fun x => decide (x.id ≠ o.id))).length = l.length - 1 := by
  induction l with
  | nil => cases ho
  | cons z l ih =>
    rw [List.map_cons, List.nodup_cons] at h
    by_cases hz : z.id = o.id
    · rw [List.filter_cons_of_neg (by simp [hz]), List.filter_eq_self.2]
      · simp
      · intro x hx
        rw [decide_eq_true_eq]
        intro hxo
        exact h.1 (List.mem_map.2 ⟨x, hx, hxo.trans hz.symm⟩)
    · rw [List.filter_cons_of_pos (by simp [hz]), List.length_cons]
      have ho' : o ∈ l := by
        rcases List.mem_cons.1 ho with rfl | ho
        · exact absurd rfl hz
        · exact ho
      rw [ih h.2 ho']
      have := List.length_pos_of_mem ho'
      simp; omega

/-- C86: what is written into a slot is read back, and no other slot changes. -/
theorem C86_write_node {key : Nat} {n : Node} (hs : s.slotSize = computeSlotSize s.callbackInfoLen)
    (hroom : 65 + key * s.slotSize + s.slotSize ≤ s.data.length) (hn : n.Fits s.callbackInfoLen) :
    ∃ s', s.writeNode n key = .ok s' ∧ s'.data.length = s.data.length ∧ s'.getNode key = .ok n ∧
      ∀ k, k ≠ key → s'.getNode k = s.getNode k := by
  obtain ⟨d, h1, h2, h3, h4⟩ := write_ok hs hroom hn
  exact ⟨_, h1, h2, h3, h4⟩

/-- C86: an order that is not there is not removed, and nothing changes. -/
theorem C86_remove_absent (h : Good s (some t) free) (hk : ∀ o ∈ t.orders, o.id ≠ k) :
    ∃ F, ∀ fuel, F ≤ fuel → s.removeByKey k fuel = .ok (none, s) := by
  have hst := h.stored t rfl
  have hb := h.bits t rfl
  have hroot := h.root t rfl
  have hlc : s.leafCount ≠ 0 := by
    rw [h.leaves]
    exact fun h0 => orders_ne t (List.eq_nil_of_length_eq_zero h0)
  obtain ⟨N, hN⟩ := loop_absent hst hb hk
  refine ⟨N, fun fuel hf => ?_⟩
  unfold Slab.removeByKey
  rw [if_neg hlc, hroot]
  cases t with
  | leaf sl x =>
    rw [show s.getNode (Tree.leaf sl x).slot = _ from hst]
    dsimp only [Bind.bind, Except.bind]
    rw [if_neg (hk x (by simp [Tree.orders]))]
  | inner sl p kk l r =>
    rw [show s.getNode (Tree.inner sl p kk l r).slot = _ from hst.1]
    dsimp only [Bind.bind, Except.bind]
    have := hN (fuel + 1) 0 false (by omega)
    rw [removeLoop, show s.getNode (Tree.inner sl p kk l r).slot = _ from hst.1] at this
    dsimp only [Bind.bind, Except.bind] at this
    unfold walkDown at this ⊢
    rw [if_pos hb.1] at this ⊢
    dsimp only at this ⊢
    rw [show (Tree.inner sl p kk l r).slot = sl from rfl] at this ⊢
    rw [this]

/-- C86: an order that is there is removed and returned; all others stay, in their order; its slots are free again. The
inner nodes keep keys that begin as the ids below them. -/
theorem C86_remove_present (h : Good s (some t) free) (ho : o ∈ t.orders) :
    ∃ s' t' free', (∃ F, ∀ fuel, F ≤ fuel → s.removeByKey o.id fuel = .ok (some (.leaf o.id o.cb o.qty), s')) ∧
      Good s' t' free' ∧ ordersOf t' = t.orders.filter (fun x => decide (x.id ≠ o.id)) ∧
      s'.tag = s.tag ∧ s'.market = s.market ∧ s'.bumpIndex = s.bumpIndex ∧ s'.data.length = s.data.length ∧
      s'.callbackInfoLen = s.callbackInfoLen ∧ (∃ freed, free' = freed ++ free) ∧
      (t.Common → ∀ x, t' = some x → x.Common) := by
  have hst := h.stored t rfl
  have hb := h.bits t rfl
  have hroot := h.root t rfl
  have hlc : s.leafCount ≠ 0 := by
    rw [h.leaves]
    exact fun h0 => orders_ne t (List.eq_nil_of_length_eq_zero h0)
  have hnd : t.slots.Nodup := (List.nodup_append.1 h.nodup).1
  have hndf : free.Nodup := (List.nodup_append.1 h.nodup).2.1
  have hdis : ∀ x ∈ t.slots, x ∉ free := fun x hx hxf => (List.nodup_append.1 h.nodup).2.2 x hx x hxf rfl
  have hcount : t.slots.length + free.length = s.bumpIndex := by
    rw [← h.count]; simp [slotsOf]
  have hbump := h.bump
  rcases loop_present hst hb hnd ⟨o, ho, rfl⟩ with ⟨sl, x, rfl, hx, _⟩ | ⟨ph, ch, oh, b, x, t', hc, N, hN⟩
  · have hxo : x = o := by
      have : o = x := by simpa [Tree.orders] using ho
      exact this.symm
    subst hxo
    have hg : s.getNode sl = .ok (.leaf x.id x.cb x.qty) := hst
    have hr : s.rootNode = sl := hroot
    have hone : s.leafCount = 1 := by rw [h.leaves]; rfl
    obtain ⟨d, h1, h2, h3, h4⟩ := remove_ok (s := { s with rootNode := 0, leafCount := 0 }) (key := sl) h.size hg h.head
      (by show s.freeListLen + 1 < _; rw [h.freeLen]; omega)
    refine ⟨{ s with rootNode := 0, leafCount := 0, data := d, freeListHead := sl, freeListLen := s.freeListLen + 1 }, none, sl :: free, ⟨0, fun fuel _ => ?_⟩, ⟨h.size, ?_, hbump, ?_, ?_, ?_, ?_, ?_, ?_, rfl, by simp, by simp, by simp⟩,
      ?_, rfl, rfl, rfl, h2, rfl, ⟨[sl], rfl⟩, by simp⟩
    · unfold Slab.removeByKey
      rw [if_neg hlc, hr, hg]
      dsimp only [Bind.bind, Except.bind]
      rw [if_pos rfl, if_pos hone, h1]
    · show 65 + s.bumpIndex * s.slotSize ≤ d.length
      rw [h2]; exact h.room
    · exact h.nodup
    · exact h.range
    · exact h.count
    · show s.freeListLen + 1 = (sl :: free).length
      rw [h.freeLen]; rfl
    · show sl < 2 ^ 32
      have := h.range sl (by simp [slotsOf, Tree.slots]); omega
    · refine chain_cons (chain_congr (get := s.getNode) (fun y hy => h4 y ?_) h.chain) ?_
      · rintro rfl; exact hdis y (by simp [Tree.slots]) hy
      · rw [← h.freeLen]; exact h3
    · simp [ordersOf, Tree.orders]
  · have hxo : x = o := same_of_id (bits_unique hb) hc.mem ho hc.id
    subst hxo
    obtain ⟨n, hn⟩ := hc.other
    obtain ⟨p, kk, hpar⟩ := hc.parent
    have hnd' := hc.perm.nodup_iff.1 hnd
    rw [List.nodup_cons, List.nodup_cons] at hnd'
    obtain ⟨c1, c2, c3⟩ := hnd'
    have hpc : ph ≠ ch := by rintro rfl; exact c1 (by simp [hc.inside])
    have hpo : ph ≠ oh := by rintro rfl; exact c2 hc.inside
    have hco : ch ≠ oh := by rintro rfl; exact c1 (by simp)
    have inT : ∀ y, y = ph ∨ y = ch ∨ y = oh → y ∈ t.slots := by
      intro y hy
      apply hc.perm.symm.subset
      rcases hy with rfl | rfl | rfl
      · simp [hc.inside]
      · simp
      · simp
    have hplen := hc.perm.length_eq
    simp only [List.length_cons] at hplen
    -- the other child is freed
    obtain ⟨d1, e1, l1, g1, o1⟩ := remove_ok (key := oh) h.size hn h.head (by rw [h.freeLen]; omega)
    have rng : ∀ y, y = ph ∨ y = ch ∨ y = oh → y < 2 ^ 32 := by
      intro y hy
      have := h.range y (by simp [slotsOf, inT y hy]); omega
    -- its contents are written over the parent
    obtain ⟨d2, e2, l2, g2, o2⟩ := write!_ok (s := { s with data := d1, freeListHead := oh, freeListLen := s.freeListLen + 1 })
      (key := ph) (n := n) h.size (by
        show 65 + ph * s.slotSize + s.slotSize ≤ d1.length
        rw [l1]; exact get_room hpar) (get_fits (s := s) hn)
    -- the leaf is freed
    obtain ⟨d3, e3, l3, g3, o3⟩ := remove_ok (s := { s with data := d2, freeListHead := oh, freeListLen := s.freeListLen + 1, leafCount := s.leafCount - 1 })
      (key := ch) h.size (by
        have : ({ s with data := d2, freeListHead := oh, freeListLen := s.freeListLen + 1, leafCount := s.leafCount - 1 } : Slab).getNode ch = s.getNode ch :=
          (o2 ch (Ne.symm hpc)).trans (o1 ch hco)
        rw [this, hc.child]) (rng oh (by simp))
      (by show s.freeListLen + 1 + 1 < _; rw [h.freeLen]; omega)
    simp only at l1 l2 l3 g1 g2 g3 o1 o2 o3 e1 e2 e3
    refine ⟨{ s with data := d3, freeListHead := ch, freeListLen := s.freeListLen + 1 + 1, leafCount := s.leafCount - 1 },
      some t', ch :: oh :: free, ⟨N, fun fuel hf => ?_⟩, ⟨h.size, ?_, hbump, ?_, ?_, ?_, ?_, rng ch (by simp), ?_, ?_, ?_, ?_, ?_⟩,
      ?_, rfl, rfl, rfl, (l3.trans l2).trans l1, rfl, ⟨[ch, oh], rfl⟩, by rintro h' y ⟨⟩; exact hc.common h'⟩
    · cases t with
      | leaf sl y =>
        have := hc.perm.length_eq
        simp [Tree.slots] at this
      | inner sl p0 k0 l r =>
        unfold Slab.removeByKey
        rw [if_neg hlc, hroot]
        rw [show s.getNode (Tree.inner sl p0 k0 l r).slot = _ from hst.1]
        dsimp only [Bind.bind, Except.bind]
        have := hN (fuel + 1) 0 false (by omega)
        rw [removeLoop, show s.getNode (Tree.inner sl p0 k0 l r).slot = _ from hst.1] at this
        dsimp only [Bind.bind, Except.bind] at this
        unfold walkDown at this ⊢
        rw [if_pos hb.1] at this ⊢
        dsimp only at this ⊢
        rw [show (Tree.inner sl p0 k0 l r).slot = sl from rfl] at this ⊢
        rw [this]
        dsimp only
        rw [hpar]
        have hother : ∀ c0 c1, (if b then Node.inner p kk oh ch else .inner p kk ch oh) = .inner p kk c0 c1 →
            (if b then c0 else c1) = oh := by
          intro c0 c1 he
          cases b <;> simp at he <;> simp [he]
        cases b with
        | true =>
          simp only [if_true]
          rw [e1]
          dsimp only
          rw [e2]
          dsimp only [subU]
          rw [if_pos (by omega)]
          dsimp only
          rw [e3, show s.rootNode = sl from hroot]
        | false =>
          simp only [Bool.false_eq_true, if_false]
          rw [e1]
          dsimp only
          rw [e2]
          dsimp only [subU]
          rw [if_pos (by omega)]
          dsimp only
          rw [e3, show s.rootNode = sl from hroot]
    · show 65 + s.bumpIndex * s.slotSize ≤ d3.length
      rw [l3, l2, l1]; exact h.room
    · refine (List.Perm.nodup_iff ?_).1 h.nodup
      exact (hc.perm.append_right free).trans (perm_move ch oh t'.slots free)
    · intro y hy
      apply h.range
      exact ((hc.perm.append_right free).trans (perm_move ch oh t'.slots free)).symm.subset hy
    · have := ((hc.perm.append_right free).trans (perm_move ch oh t'.slots free)).length_eq
      show (t'.slots ++ ch :: oh :: free).length = s.bumpIndex
      rw [← this, ← h.count]; rfl
    · show s.freeListLen + 1 + 1 = (ch :: oh :: free).length
      rw [h.freeLen]; rfl
    · have chain1 : Chain ({ s with data := d1 } : Slab).getNode oh (oh :: free) := by
        refine chain_cons (chain_congr (get := s.getNode) (fun y hy => o1 y ?_) h.chain) ?_
        · rintro rfl; exact hdis y (inT y (by simp)) hy
        · rw [← h.freeLen]; exact g1
      have chain2 : Chain ({ s with data := d2 } : Slab).getNode oh (oh :: free) := by
        refine chain_congr (get := ({ s with data := d1 } : Slab).getNode) (fun y hy => o2 y ?_) chain1
        rintro rfl
        rcases List.mem_cons.1 hy with e | hy
        · exact hpo e
        · exact hdis y (inT y (by simp)) hy
      refine chain_cons (chain_congr (get := ({ s with data := d2 } : Slab).getNode) (fun y hy => o3 y ?_) chain2) ?_
      · rintro rfl
        rcases List.mem_cons.1 hy with e | hy
        · exact hco e
        · exact hdis y (inT y (by simp)) hy
      · rw [if_neg (by simp)]
        have : s.freeListLen + 1 ≠ 0 := by omega
        rw [if_neg this] at g3
        exact g3
    · show s.leafCount - 1 = t'.orders.length
      rw [hc.orders, filter_length (bits_unique hb) ho, h.leaves]; rfl
    · rintro y ⟨⟩
      exact hroot.trans hc.slot.symm
    · rintro y ⟨⟩
      refine hc.stored _ ?_ ?_
      · exact ((o3 ph hpc).trans g2).trans hn.symm
      · intro z _ z1 z2 z3
        exact ((o3 z z2).trans (o2 z z1)).trans (o1 z z3)
    · rintro y ⟨⟩; exact hc.bits
    · exact hc.orders

theorem stored_holds {get : Nat → Res Node} : ∀ {t : Tree}, t.Stored get → Holds get t.slot t.orders := by
  intro t
  induction t with
  | leaf h o => intro hs; exact .leaf hs
  | inner h p k l r ihl ihr => rintro ⟨h1, h2, h3⟩; exact .inner h1 (ihl h2) (ihr h3)

/-- C86: `remove_min` takes out the leftmost order and `remove_max` the rightmost one, which are the lowest and the highest
when the orders are sorted; all others stay. -/
theorem C86_remove_min_max (h : Good s (some t) free) (max : Bool)
    (ho : (if max then t.orders.getLast? else t.orders.head?) = some o) :
    ∃ s' t' free', (∃ F, ∀ fuel, F ≤ fuel → s.removeMinMax max fuel = .ok (some (.leaf o.id o.cb o.qty), s')) ∧
      Good s' t' free' ∧ ordersOf t' = t.orders.filter (fun x => decide (x.id ≠ o.id)) ∧
      (t.orders.Pairwise (fun a b => a.id < b.id) →
        (max = false → ∀ x ∈ t.orders, o.id ≤ x.id) ∧ (max = true → ∀ x ∈ t.orders, x.id ≤ o.id)) := by
  have hm : o ∈ t.orders := by
    cases max
    · exact List.mem_of_head? ho
    · exact List.mem_of_getLast? ho
  obtain ⟨s', t', free', ⟨F, hF⟩, hg, hord, -⟩ := C86_remove_present h hm
  obtain ⟨n, k, o', ho', hk, hfuel⟩ := loop_minMax (stored_holds (h.stored t rfl)) max
  have hoo : o' = o := by rw [ho] at ho'; exact (Option.some.inj ho').symm
  subst hoo
  have hlc : s.leafCount ≠ 0 := by
    rw [h.leaves]
    exact fun h0 => orders_ne t (List.eq_nil_of_length_eq_zero h0)
  refine ⟨s', t', free', ⟨F + n, fun fuel hf => ?_⟩, hg, hord, fun hs => ⟨?_, ?_⟩⟩
  · unfold Slab.removeMinMax
    rw [if_neg hlc, h.root t rfl]
    obtain ⟨f, rfl⟩ : ∃ f, fuel = f + n := ⟨fuel - n, by omega⟩
    rw [hfuel f]
    dsimp only [Bind.bind, Except.bind]
    rw [hk]
    dsimp only
    exact hF _ (by omega)
  · rintro rfl x hx
    simp only [Bool.false_eq_true, if_false] at ho
    obtain ⟨r, hr⟩ := List.head?_eq_some_iff.1 ho
    rw [hr] at hx hs
    rcases List.mem_cons.1 hx with rfl | hx
    · exact Nat.le_refl _
    · exact Nat.le_of_lt (List.rel_of_pairwise_cons hs hx)
  · rintro rfl x hx
    simp only [if_true] at ho
    obtain ⟨r, hr⟩ := List.getLast?_eq_some_iff.1 ho
    rw [hr] at hx hs
    rcases List.mem_append.1 hx with hx | hx
    · exact Nat.le_of_lt ((List.pairwise_append.1 hs).2.2 x hx _ (by simp))
    · rw [List.mem_singleton.1 hx]

/-- C86: from an empty slab nothing is removed. -/
theorem C86_remove_empty (h : Good s none free) (k fuel : Nat) (max : Bool) :
    s.removeByKey k fuel = .ok (none, s) ∧ s.removeMinMax max fuel = .ok (none, s) := by
  have : s.leafCount = 0 := h.leaves
  unfold Slab.removeByKey Slab.removeMinMax
  rw [if_pos this, if_pos this]
  exact ⟨rfl, rfl⟩

/-- C86: any sequence of removals leaves a good slab with exactly the orders whose ids were not named. -/
theorem C86_removals (ks : List Nat) : ∀ {s : Slab} {t : Option Tree} {free : List Nat}, Good s t free →
    ∃ s' t' free', (∃ F, ∀ fuel, F ≤ fuel → removeAll fuel ks s = .ok s') ∧ Good s' t' free' ∧
      ordersOf t' = (ordersOf t).filter (fun x => decide (x.id ∉ ks)) ∧ s'.bumpIndex = s.bumpIndex ∧
      ((∀ x, t = some x → x.Common) → ∀ x, t' = some x → x.Common) := by
  induction ks with
  | nil =>
    intro s t free h
    refine ⟨s, t, free, ⟨0, fun _ _ => rfl⟩, h, ?_, rfl, id⟩
    rw [List.filter_eq_self.2]
    simp
  | cons k ks ih =>
    intro s t free h
    have step : ∃ s1 r t1 free1, (∃ F, ∀ fuel, F ≤ fuel → s.removeByKey k fuel = .ok (r, s1)) ∧ Good s1 t1 free1 ∧
        ordersOf t1 = (ordersOf t).filter (fun x => decide (x.id ≠ k)) ∧ s1.bumpIndex = s.bumpIndex ∧
        ((∀ x, t = some x → x.Common) → ∀ x, t1 = some x → x.Common) := by
      cases t with
      | none => exact ⟨s, none, none, free, ⟨0, fun fuel _ => (C86_remove_empty h k fuel false).1⟩, h, rfl, rfl, id⟩
      | some t =>
        by_cases hk : ∃ o ∈ t.orders, o.id = k
        · obtain ⟨o, ho, rfl⟩ := hk
          obtain ⟨s1, t1, free1, h1, h2, h3, -, -, h4, -, -, -, h5⟩ := C86_remove_present h ho
          exact ⟨s1, _, t1, free1, h1, h2, h3, h4, fun hc => h5 (hc t rfl)⟩
        · have hk' : ∀ o ∈ t.orders, o.id ≠ k := fun o ho e => hk ⟨o, ho, e⟩
          refine ⟨s, none, some t, free, C86_remove_absent h hk', h, ?_, rfl, id⟩
          exact (List.filter_eq_self.2 (fun x hx => decide_eq_true (hk' x hx))).symm
    obtain ⟨s1, r, t1, free1, ⟨F1, e1⟩, g1, o1, b1, c1⟩ := step
    obtain ⟨s2, t2, free2, ⟨F2, e2⟩, g2, o2, b2, c2⟩ := ih g1
    refine ⟨s2, t2, free2, ⟨F1 + F2, fun fuel hf => ?_⟩, g2, ?_, b2.trans b1, fun hc => c2 (c1 hc)⟩
    · rw [removeAll, e1 fuel (by omega)]
      exact e2 fuel (by omega)
    · rw [o2, o1, List.filter_filter]
      apply List.filter_congr
      intro x _
      rw [← Bool.decide_and, decide_eq_decide, List.mem_cons]
      tauto

/-- C86: a node goes into the slot freed last, or the first slot never used; every other slot stays as it is. It fails exactly
when no slot is left (or all `2 ^ 32 - 1` are used). -/
theorem C86_insert {t : Option Tree} {n : Node} (h : Good s t free) (hn : n.Fits s.callbackInfoLen) :
    (free = [] ∧ ((s.data.length - 65) / s.slotSize = s.bumpIndex ∨ s.bumpIndex = 2 ^ 32 - 1) ∧ s.insert n = .error .io) ∨
    ∃ slot s', s.insert n = .ok (slot, s') ∧ (free.head? = some slot ∨ free = [] ∧ slot = s.bumpIndex) ∧
      s'.getNode slot = .ok n ∧ (∀ k, k ≠ slot → s'.getNode k = s.getNode k) ∧
      Chain s'.getNode s'.freeListHead free.tail ∧ s'.freeListLen = free.length - 1 ∧
      s'.bumpIndex = max s.bumpIndex (slot + 1) ∧ 65 + s'.bumpIndex * s'.slotSize ≤ s'.data.length ∧
      s'.data.length = s.data.length ∧ s'.rootNode = s.rootNode ∧ s'.leafCount = s.leafCount ∧ s'.tag = s.tag ∧
      s'.market = s.market ∧ s'.callbackInfoLen = s.callbackInfoLen ∧ s'.slotSize = s.slotSize := by
  have hss : 0 < s.slotSize := by rw [h.size]; unfold computeSlotSize; omega
  have hroom := h.room
  have hbump := h.bump
  cases free with
  | nil =>
    have hfl : s.freeListLen = 0 := h.freeLen
    have hcap : s.capacity = .ok ((s.data.length - 65) / s.slotSize) := by
      unfold Slab.capacity
      rw [if_neg (by omega)]
    unfold Slab.insert
    rw [if_pos hfl, hcap]
    dsimp only [Bind.bind, Except.bind]
    by_cases h1 : s.bumpIndex = (s.data.length - 65) / s.slotSize
    · left
      refine ⟨rfl, .inl h1.symm, ?_⟩
      rw [if_pos h1]
    · rw [if_neg h1]
      by_cases h2 : s.bumpIndex = 2 ^ 32 - 1
      · left
        refine ⟨rfl, .inr h2, ?_⟩
        rw [if_pos h2]
      · right
        have hle : s.bumpIndex ≤ (s.data.length - 65) / s.slotSize := (Nat.le_div_iff_mul_le hss).2 (by omega)
        have hlt : (s.bumpIndex + 1) * s.slotSize ≤ s.data.length - 65 :=
          (Nat.le_div_iff_mul_le hss).1 (by omega)
        rw [Nat.add_mul, Nat.one_mul] at hlt
        obtain ⟨d, w1, w2, w3, w4⟩ := write_ok (s := { s with bumpIndex := s.bumpIndex + 1 }) (key := s.bumpIndex) (n := n) h.size
          (by show 65 + s.bumpIndex * s.slotSize + s.slotSize ≤ s.data.length; omega) hn
        refine ⟨s.bumpIndex, { s with bumpIndex := s.bumpIndex + 1, data := d }, ?_, .inr ⟨rfl, rfl⟩, w3, w4, trivial,
          hfl, ?_, ?_, w2, rfl, rfl, rfl, rfl, rfl, rfl⟩
        · rw [if_neg h2]
          rw [addU64, if_pos (by unfold U64; omega)]
          dsimp only
          rw [Nat.mod_eq_of_lt hbump, w1]
        · show s.bumpIndex + 1 = _; omega
        · show 65 + (s.bumpIndex + 1) * s.slotSize ≤ d.length
          rw [w2, Nat.add_mul, Nat.one_mul]; show _ ≤ s.data.length; omega
  | cons slot rest =>
    right
    have hfl : s.freeListLen = rest.length + 1 := h.freeLen
    have hslot : slot < s.bumpIndex := h.range slot (by simp)
    have hch := h.chain
    have hnot : slot ∉ rest := (List.nodup_cons.1 (List.nodup_append.1 h.nodup).2.1).1
    obtain ⟨next, hnext, hhead, hrest⟩ : ∃ next, (match s.getNode slot with
        | .error e => Except.error e
        | .ok (.free n) => if 1 < s.freeListLen then Except.ok n else Except.error Err.panic
        | .ok (.lastFree n) => if s.freeListLen = 1 then .ok n else .error .panic
        | _ => .error .panic) = .ok next ∧ s.freeListHead = slot ∧ Chain s.getNode next rest := by
      cases rest with
      | nil =>
        obtain ⟨e, m, hm⟩ := hch
        refine ⟨m, ?_, e, trivial⟩
        rw [hm]
        dsimp only
        rw [if_pos (show s.freeListLen = 1 from hfl)]
      | cons h' t' =>
        obtain ⟨e, hm, hc⟩ := hch
        refine ⟨h', ?_, e, hc⟩
        rw [hm]
        dsimp only
        rw [if_pos (by rw [hfl, List.length_cons]; omega)]
    obtain ⟨d, w1, w2, w3, w4⟩ := write!_ok (s := { s with freeListHead := next, freeListLen := s.freeListLen - 1 })
      (key := slot) (n := n) h.size (by
        show 65 + slot * s.slotSize + s.slotSize ≤ s.data.length
        have : (slot + 1) * s.slotSize ≤ s.bumpIndex * s.slotSize := Nat.mul_le_mul_right _ hslot
        rw [Nat.add_mul, Nat.one_mul] at this
        omega) hn
    refine ⟨slot, { s with freeListHead := next, freeListLen := s.freeListLen - 1, data := d }, ?_, .inl rfl, w3, w4, ?_, ?_, ?_,
      ?_, w2, rfl, rfl, rfl, rfl, rfl, rfl⟩
    · unfold Slab.insert
      rw [if_neg (by omega), hhead]
      dsimp only [Bind.bind, Except.bind]
      revert hnext
      cases s.getNode slot with
      | error e => intro hx; cases hx
      | ok m =>
        intro hx
        cases m <;> dsimp only at hx ⊢ <;> first | (rw [hx]; dsimp only; rw [w1]) | cases hx
    · exact chain_congr (get := s.getNode) (fun y hy => w4 y (by rintro rfl; exact hnot hy)) hrest
    · show s.freeListLen - 1 = _; rw [hfl]; rfl
    · show s.bumpIndex = _; omega
    · show 65 + s.bumpIndex * s.slotSize ≤ d.length
      rw [w2]; exact hroom

theorem seq_full {get : Nat → Res Node} {depth : Nat} {inc : Bool} {fuel : Nat} {stack r : List Nat}
    (h : r.length = depth) : sequenceLoop get depth inc (fuel + 1) stack r = .ok r := by
  cases stack <;> rw [sequenceLoop, if_pos h]

theorem take_more {depth : Nat} {r : List Nat} (a b : List Nat) (h : r.length ≤ depth) :
    r ++ (a ++ b).take (depth - r.length) =
      (r ++ a.take (depth - r.length)) ++ b.take (depth - (r ++ a.take (depth - r.length)).length) := by
  rw [List.append_assoc, List.take_append, List.length_append, List.length_take]
  congr 3; omega

theorem loop_sequence {get : Nat → Res Node} {depth : Nat} {inc : Bool} : ∀ {t : Tree}, t.Stored get →
    ∃ n, ∀ fuel stack r, r.length ≤ depth → sequenceLoop get depth inc (fuel + n + 1) (t.slot :: stack) r =
      sequenceLoop get depth inc (fuel + 1) stack
        (r ++ (if inc then t.leafSlots else t.leafSlots.reverse).take (depth - r.length)) := by
  intro t
  induction t with
  | leaf h o =>
    intro hs
    refine ⟨1, fun fuel stack r hr => ?_⟩
    have e : (if inc then (Tree.leaf h o).leafSlots else (Tree.leaf h o).leafSlots.reverse) = [h] := by cases inc <;> rfl
    rw [e]
    by_cases hd : r.length = depth
    · rw [seq_full hd, seq_full (by rw [hd]; simpa using hd)]
      simp [hd]
    · rw [sequenceLoop, if_neg hd]
      rw [show get (Tree.leaf h o).slot = _ from hs]
      dsimp only [Bind.bind, Except.bind]
      rw [List.take_of_length_le (by simp; omega)]
      rfl
  | inner h p k l r ihl ihr =>
    rintro ⟨h1, h2, h3⟩
    obtain ⟨n0, e0⟩ := ihl h2
    obtain ⟨n1, e1⟩ := ihr h3
    refine ⟨n0 + n1 + 1, fun fuel stack res hr => ?_⟩
    by_cases hd : res.length = depth
    · rw [seq_full hd, seq_full (by rw [hd]; simpa using hd)]
      simp [hd]
    · rw [sequenceLoop, if_neg hd]
      rw [show get (Tree.inner h p k l r).slot = _ from h1]
      dsimp only [Bind.bind, Except.bind]
      cases inc with
      | true =>
        simp only [if_true] at e0 e1 ⊢
        rw [show fuel + (n0 + n1 + 1) = (fuel + n1) + n0 + 1 by omega, e0 _ _ _ hr,
          e1 _ _ _ (by rw [List.length_append, List.length_take]; omega), Tree.leafSlots, take_more _ _ hr]
      | false =>
        simp only [Bool.false_eq_true, if_false] at e0 e1 ⊢
        rw [show fuel + (n0 + n1 + 1) = (fuel + n0) + n1 + 1 by omega, e1 _ _ _ hr,
          e0 _ _ _ (by rw [List.length_append, List.length_take]; omega), Tree.leafSlots, List.reverse_append, take_more _ _ hr]

/-- C86: `find_node_sequence` lists the slots of the first `depth` orders from the left, or from the right. -/
theorem C86_sequence (h : Good s (some t) free) (depth : Nat) (increasing : Bool) :
    ∃ F, ∀ fuel, F ≤ fuel → s.findNodeSequence depth increasing fuel =
      .ok ((if increasing then t.leafSlots else t.leafSlots.reverse).take depth) := by
  have hlc : s.leafCount ≠ 0 := by
    rw [h.leaves]
    exact fun h0 => orders_ne t (List.eq_nil_of_length_eq_zero h0)
  obtain ⟨n, hn⟩ := loop_sequence (depth := depth) (inc := increasing) (h.stored t rfl)
  refine ⟨n + 1, fun fuel hf => ?_⟩
  obtain ⟨f, rfl⟩ : ∃ f, fuel = f + n + 1 := ⟨fuel - n - 1, by omega⟩
  unfold Slab.findNodeSequence
  rw [if_neg hlc, h.root t rfl, hn _ _ _ (Nat.zero_le _), sequenceLoop]
  simp only [List.nil_append, List.length_nil, Nat.sub_zero, ite_self]

/-- C86: the slots listed hold the orders. -/
theorem C86_leaf_slots (h : Good s (some t) free) :
    List.Forall₂ (fun slot o => s.getNode slot = .ok (.leaf o.id o.cb o.qty)) t.leafSlots t.orders := by
  have := h.stored t rfl
  clear h
  induction t with
  | leaf h o => exact .cons this .nil
  | inner h p k l r ihl ihr => exact List.rel_append (ihl this.2.1) (ihr this.2.2)

/-- C86: `Slab::new` panics exactly on what is shorter than a header or has a tag above 4. -/
theorem C86_new (data : Bytes) (callbackInfoLen slotSize : Nat) :
    ((∃ s, Slab.new data callbackInfoLen slotSize = .ok s) ↔ 65 ≤ data.length ∧ ∀ t ∈ data[0]?, t.toNat ≤ 4) ∧
    ((¬ ∃ s, Slab.new data callbackInfoLen slotSize = .ok s) → Slab.new data callbackInfoLen slotSize = .error .panic) := by
  unfold Slab.new
  cases h : data[0]? with
  | none =>
    have : data.length = 0 := by simpa using h
    simp [this]
  | some t =>
    by_cases hc : 4 < t.toNat ∨ data.length < 65
    · simp only [if_pos hc]
      simp only [reduceCtorEq, exists_false, Option.mem_def, Option.some.injEq, false_iff, not_false_eq_true, implies_true, and_true]
      rintro ⟨h1, h2⟩
      have := h2 t rfl
      omega
    · simp only [if_neg hc]
      simp only [Except.ok.injEq, exists_eq', Option.mem_def, Option.some.injEq, forall_eq', true_iff, not_true_eq_false,
        false_implies, and_true]
      omega

/-- C86: a slab is for bids exactly when its first byte is 3 and for asks exactly when it is 4. -/
theorem C86_side {data : Bytes} {callbackInfoLen slotSize : Nat} (h : Slab.new data callbackInfoLen slotSize = .ok s) :
    (s.check .bid = true ↔ data[0]? = some 3) ∧ (s.check .ask = true ↔ data[0]? = some 4) := by
  unfold Slab.new at h
  cases ht : data[0]? with
  | none => rw [ht] at h; cases h
  | some t =>
    rw [ht] at h
    simp only at h
    split at h
    · cases h
    cases h
    simp only [Slab.check, beq_iff_eq, Option.some.injEq]
    constructor
    · exact ⟨fun h => UInt8.toNat_inj.1 h, fun h => by rw [h]; rfl⟩
    · exact ⟨fun h => UInt8.toNat_inj.1 h, fun h => by rw [h]; rfl⟩

/-- C86: a slot has the size of a leaf, or 32 bytes when a leaf is shorter; every node fits in. `capacity` is the largest
number of slots the account has room for, and panics exactly on a short account or slots without size. -/
theorem C86_sizes (s : Slab) :
    computeSlotSize s.callbackInfoLen = (if s.callbackInfoLen < 7 then 32 else s.callbackInfoLen + 25) ∧
    (∀ n : Node, n.Fits s.callbackInfoLen → n.bytes.length ≤ computeSlotSize s.callbackInfoLen) ∧
    (s.data.length < 65 ∨ s.slotSize = 0 → s.capacity = .error .panic) ∧
    (65 ≤ s.data.length → 0 < s.slotSize → ∃ cap, s.capacity = .ok cap ∧
      ∀ n, n ≤ cap ↔ 65 + n * s.slotSize ≤ s.data.length) := by
  refine ⟨?_, ?_, ?_, ?_⟩
  · unfold computeSlotSize; split <;> omega
  · intro n hn
    unfold computeSlotSize
    cases n with
    | leaf k cb q => simp only [Node.Fits] at hn; simp only [Node.bytes, List.length_cons, List.length_append, toLE_length, hn]; omega
    | _ => simp only [Node.bytes, List.length_cons, List.length_append, List.length_nil, toLE_length]; omega
  · intro h; unfold Slab.capacity; rw [if_pos h]
  · intro h1 h2
    refine ⟨_, by unfold Slab.capacity; rw [if_neg (by omega)], fun n => ?_⟩
    rw [Nat.le_div_iff_mul_le h2]; omega

/-- C86: the header that is written is the header that is read, by `Slab::new` here and by the functions of C79; the nodes stay
as they are. -/
theorem C86_header (hlen : 65 ≤ s.data.length) (ht : s.tag ≤ 4) (hb : s.bumpIndex < 2 ^ 64) (hf : s.freeListLen < 2 ^ 64)
    (hh : s.freeListHead < 2 ^ 32) (hr : s.rootNode < 2 ^ 32) (hc : s.leafCount < 2 ^ 64) (hm : s.market.length = 32) :
    ∃ s', s.writeHeader = .ok s' ∧ Slab.new s'.data s.callbackInfoLen s.slotSize = .ok s' ∧ s' = { s with data := s'.data } ∧
      readHeader s'.data = .ok ⟨s.rootNode, s.leafCount⟩ ∧ s'.data.length = s.data.length ∧ ∀ k, s'.getNode k = s.getNode k := by
  have p4 : (2 : Nat) ^ 32 = 256 ^ 4 := by decide
  have p8 : (2 : Nat) ^ 64 = 256 ^ 8 := by decide
  generalize hbs : UInt8.ofNat s.tag :: toLE 8 s.bumpIndex ++ toLE 8 s.freeListLen ++ toLE 4 s.freeListHead ++
    toLE 4 s.rootNode ++ toLE 8 s.leafCount ++ s.market = bs
  have hbl : bs.length = 65 := by rw [← hbs]; simp [hm]
  have hbs' : bs = UInt8.ofNat s.tag :: (toLE 8 s.bumpIndex ++ (toLE 8 s.freeListLen ++ (toLE 4 s.freeListHead ++
    (toLE 4 s.rootNode ++ (toLE 8 s.leafCount ++ s.market))))) := by rw [← hbs]; simp
  have hpl : (patch s.data 0 bs).length = s.data.length := patch_length (by omega)
  have hpa : patch s.data 0 bs = bs ++ s.data.drop 65 := by unfold patch; simp [hbl]
  have htag : (UInt8.ofNat s.tag).toNat = s.tag := by simp; omega
  have h0 : (patch s.data 0 bs)[0]? = some (UInt8.ofNat s.tag) := by rw [hpa, hbs']; rfl
  have e : ∀ off n, field (patch s.data 0 bs) (off + 1) n = field (toLE 8 s.bumpIndex ++ (toLE 8 s.freeListLen ++
      (toLE 4 s.freeListHead ++ (toLE 4 s.rootNode ++ (toLE 8 s.leafCount ++ (s.market ++ s.data.drop 65)))))) off n := by
    intro off n
    rw [hpa, hbs']
    unfold field
    simp only [List.cons_append, List.drop_succ_cons, List.append_assoc]
  have f1 : field (patch s.data 0 bs) 1 8 = s.bumpIndex := by rw [e 0, field_head _ (p8 ▸ hb)]
  have f2 : field (patch s.data 0 bs) 9 8 = s.freeListLen := by
    rw [e 8, field_skip _ _ _ _ (by simp), toLE_length, field_head _ (p8 ▸ hf)]
  have f3 : field (patch s.data 0 bs) 17 4 = s.freeListHead := by
    rw [e 16, field_skip _ _ _ _ (by simp), toLE_length, field_skip _ _ _ _ (by simp), toLE_length, field_head _ (p4 ▸ hh)]
  have f4 : field (patch s.data 0 bs) 21 4 = s.rootNode := by
    rw [e 20, field_skip _ _ _ _ (by simp), toLE_length, field_skip _ _ _ _ (by simp), toLE_length,
      field_skip _ _ _ _ (by simp), toLE_length, field_head _ (p4 ▸ hr)]
  have f5 : field (patch s.data 0 bs) 25 8 = s.leafCount := by
    rw [e 24, field_skip _ _ _ _ (by simp), toLE_length, field_skip _ _ _ _ (by simp), toLE_length,
      field_skip _ _ _ _ (by simp), toLE_length, field_skip _ _ _ _ (by simp), toLE_length, field_head _ (p8 ▸ hc)]
  have f6 : Js.slice (patch s.data 0 bs) 33 65 = s.market := by
    rw [hpa, hbs']
    unfold Js.slice
    simp only [List.cons_append, List.drop_succ_cons, List.append_assoc]
    rw [slice_skip _ _ _ (by simp), toLE_length, slice_skip _ _ _ (by simp), toLE_length, slice_skip _ _ _ (by simp),
      toLE_length, slice_skip _ _ _ (by simp), toLE_length, slice_skip _ _ _ (by simp), toLE_length]
    exact slice_head _ _ _ (by rw [hm])
  refine ⟨{ s with data := patch s.data 0 bs }, ?_, ?_, rfl, ?_, hpl, ?_⟩
  · unfold Slab.writeHeader
    rw [if_neg (by omega), hbs]
  · unfold Slab.new
    rw [h0]
    dsimp only
    rw [if_neg (by rw [htag, hpl]; omega), f1, f2, f3, f4, f5, f6, htag]
  · unfold readHeader
    rw [h0]
    dsimp only
    rw [if_neg (by rw [htag, hpl]; omega), f4, f5]
  · intro k
    unfold Slab.getNode Wasm.getNode
    dsimp only
    rw [hpl, patch_other (by omega) (.inr (by omega))]

/-! ### Concrete cases -/

/-- The slab `old` of C79, opened. -/
def opened : Slab := ⟨3, 5, 0, 0, 0, 3, List.replicate 32 0, old, 1, 32⟩

theorem opened_new : Slab.new old 1 32 = .ok opened := ok_of (by decide +kernel)

/-- Its tree. -/
def openedTree : Tree :=
  .inner 0 63 (10 * 2 ^ 64) (.inner 1 127 (10 * 2 ^ 64) (.leaf 3 ⟨10 * 2 ^ 64, 5, [8]⟩) (.leaf 4 ⟨10 * 2 ^ 64 + 1, 4, [8]⟩))
    (.leaf 2 ⟨11 * 2 ^ 64 + 2, 7, [9]⟩)

theorem opened_good : Good opened (some openedTree) [] where
  size := by decide
  room := by decide +kernel
  bump := by decide
  nodup := by decide
  range := by decide
  count := by decide
  freeLen := rfl
  head := by decide
  chain := trivial
  leaves := by decide
  root := by rintro _ ⟨⟩; rfl
  stored := by
    rintro _ ⟨⟩
    exact ⟨ok_of (by decide +kernel), ⟨ok_of (by decide +kernel), ok_of (by decide +kernel), ok_of (by decide +kernel)⟩,
      ok_of (by decide +kernel)⟩
  bits := by
    rintro _ ⟨⟩
    refine ⟨by decide, by decide +kernel, by decide +kernel, ⟨by decide, by decide +kernel, by decide +kernel, trivial, trivial⟩, trivial⟩

example : openedTree.orders = oldOrders := rfl
example := C86_remove_absent (k := 10 * 2 ^ 64 + 7) opened_good (by decide +kernel)
example := C86_remove_present (o := ⟨10 * 2 ^ 64 + 1, 4, [8]⟩) opened_good (by decide +kernel)
example := C86_remove_min_max (o := ⟨11 * 2 ^ 64 + 2, 7, [9]⟩) opened_good true (by decide +kernel)
example := C86_insert (n := .leaf 5 [6] 7) opened_good ⟨by decide, by decide, by decide⟩
example := C86_sequence opened_good 2 false
example := C86_removals [11 * 2 ^ 64 + 2, 3, 10 * 2 ^ 64, 10 * 2 ^ 64 + 1] opened_good
example := C86_header (s := opened) (by decide +kernel) (by decide) (by decide) (by decide) (by decide) (by decide) (by decide)
  (by decide)
example := C86_write_node (s := opened) (key := 2) (n := .leaf 5 [6] 7) (by decide) (by decide +kernel)
  ⟨by decide, by decide, by decide⟩

/-- The slab without the second order, and then with two more nodes. -/
def fewer : Slab := ((opened.removeByKey (10 * 2 ^ 64 + 1) 9).toOption.map Prod.snd).getD opened

/-- A node is put into a slot. -/
def putIn (s : Slab) (k : Nat) : Slab := ((s.insert (.leaf k [6] 7)).toOption.map Prod.snd).getD s

/-- The second order is removed and its sibling moves up into slot 1. -/
example : (opened.removeByKey (10 * 2 ^ 64 + 1) 9).toOption.map Prod.fst = some (some (.leaf (10 * 2 ^ 64 + 1) [8] 4)) ∧
    (fewer.getNode 1).toOption = some (.leaf (10 * 2 ^ 64) [8] 5) ∧ fewer.leafCount = 2 := by decide +kernel

/-- A new node goes into slot 4, the next one into slot 3, and then the slab is full. -/
example : (fewer.insert (.leaf 5 [6] 7)).toOption.map Prod.fst = some 4 ∧
    ((putIn fewer 5).insert (.leaf 6 [6] 7)).toOption.map Prod.fst = some 3 ∧
    ((putIn (putIn fewer 5) 6).insert (.leaf 7 [6] 7)).toOption.isNone := by decide +kernel

example : (opened.findNodeSequence 2 true 9).toOption = some [3, 4] ∧ (opened.findNodeSequence 2 false 9).toOption = some [2, 4] := by
  decide +kernel

example := C86_leaf_slots opened_good
example := C86_sizes opened
example := C86_side opened_new

/-- `C86_remove_empty`: all orders are removed, and then once more. -/
example : ∃ s free, Good s none free ∧ s.removeByKey (10 * 2 ^ 64) 9 = .ok (none, s) := by
  obtain ⟨s', t', free', -, h, h', -⟩ := C86_removals [11 * 2 ^ 64 + 2, 10 * 2 ^ 64, 10 * 2 ^ 64 + 1] opened_good
  rw [show (ordersOf (some openedTree)).filter _ = [] by decide +kernel] at h'
  cases t' with
  | none => exact ⟨s', free', h, (C86_remove_empty h _ 9 true).1⟩
  | some t => exact absurd h' (orders_ne t)

end AOB.Wasm
