import Verif.Proofs.WasmCheck
/-
C108: the check of the older slab format, and its search by key.
-/
namespace AOB.Wasm
variable {s s' : Slab} {t : Tree} {ot : Option Tree} {free : List Nat}

/-- C108: the check passes exactly on slabs that hold a tree, with ids that its inner nodes separate, and a list of free slots,
together as many slots as have been in use. -/
theorem C108_check : s.checkInvariants = .ok () ↔ ∃ ot free, Checked s ot free := by
  unfold Slab.checkInvariants
  constructor
  · intro h
    obtain ⟨count, hcount, h1⟩ := bind_ok h
    obtain ⟨total, htotal, h2⟩ := bind_ok h1
    obtain ⟨_, hass, hfree⟩ := bind_ok h2
    rw [assertThat_ok, decide_eq_true_eq] at hass
    have htot : total = count + s.freeListLen ∧ total < 2 ^ 64 := by
      unfold addU64 at htotal
      split at htotal
      · rename_i hlt
        cases htotal
        exact ⟨rfl, hlt⟩
      · cases htotal
    obtain ⟨free, hlen, hchain⟩ := checkFree_iff.1 hfree
    have tree : ∃ ot : Option Tree, (ot = none ↔ s.leafCount = 0) ∧ (∀ x, ot = some x → s.rootNode = x.slot ∧
        x.Stored s.getNode ∧ x.Bits ∧ x.Common) ∧ (slotsOf ot).length = count := by
      unfold Slab.checkTree at hcount
      split at hcount
      · rename_i h0
        cases hcount
        exact ⟨none, by simp [h0], by simp, rfl⟩
      · rename_i h0
        obtain ⟨n, hn, hc1⟩ := bind_ok hcount
        obtain ⟨k, hk, hc2⟩ := bind_ok hc1
        cases n with
        | leaf k0 cb qty =>
          cases hc2
          exact ⟨some (.leaf s.rootNode ⟨k0, qty, cb⟩), by simp [h0], by rintro _ ⟨⟩; exact ⟨rfl, hn, trivial, trivial⟩, rfl⟩
        | inner q k0 c0 c1 =>
          have hk0 := (get_fits hn).2.1
          obtain ⟨c2, e1, e2⟩ := bind_ok hc2
          obtain ⟨l, l1, l2, l3, l4, l5, l6, l7⟩ := checkRec_tree hk0 e1
          obtain ⟨r, r1, r2, r3, r4, r5, r6, r7⟩ := checkRec_tree hk0 e2
          refine ⟨some (.inner s.rootNode q k0 l r), by simp [h0], ?_, ?_⟩
          · rintro _ ⟨⟩
            refine ⟨rfl, ⟨by rw [l1, r1]; exact hn, l2, r2⟩, ⟨l5, fun o ho => (l6 o ho).2, fun o ho => (r6 o ho).2, l3, r3⟩,
              ⟨?_, l4, r4⟩⟩
            intro o ho
            rcases List.mem_append.1 ho with ho | ho
            · exact (l6 o ho).1
            · exact (r6 o ho).1
          · rw [r7, l7]
            simp only [slotsOf, Tree.slots, List.length_cons, List.length_append]
            omega
        | uninitialized => cases hk
        | free x => cases hk
        | lastFree x => cases hk
    obtain ⟨ot, t1, t2, t3⟩ := tree
    refine ⟨ot, free, t1, fun x hx => (t2 x hx).1, fun x hx => (t2 x hx).2.1, fun x hx => (t2 x hx).2.2.1,
      fun x hx => (t2 x hx).2.2.2, hchain, hlen.symm, ?_, ?_⟩
    · rw [List.length_append, t3, hlen, ← hass, htot.1]
    · rw [← hass]; exact htot.2
  · rintro ⟨ot, free, h⟩
    have hcount : s.checkTree = .ok (slotsOf ot).length := by
      unfold Slab.checkTree
      cases ot with
      | none => rw [if_pos (h.empty.1 rfl)]; rfl
      | some t =>
        have h0 : s.leafCount ≠ 0 := fun h0 => by have := h.empty.2 h0; cases this
        have hst := h.stored t rfl
        rw [if_neg h0, h.root t rfl]
        cases t with
        | leaf sl o =>
          show (s.getNode sl >>= _) = _
          rw [show s.getNode sl = _ from hst]; rfl
        | inner sl q k l r =>
          have hb := h.bits _ rfl
          have hc := h.common _ rfl
          have hk := (get_fits hst.1).2.1
          obtain ⟨v1, v2⟩ := common_below hb hc
          show (s.getNode sl >>= _) = _
          rw [hst.1, ok_bind]
          simp only [Node.key!, ok_bind]
          rw [checkRec_ok hst.2.1 hb.2.2.2.1 hc.2.1 hb.1 hk (by omega) v1, ok_bind,
            checkRec_ok hst.2.2 hb.2.2.2.2 hc.2.2 hb.1 hk (by omega) v2]
          simp only [slotsOf, Tree.slots, List.length_cons, List.length_append]
          congr 1; omega
    have hsum : (slotsOf ot).length + s.freeListLen = s.bumpIndex := by
      rw [← h.count, List.length_append, h.freeLen]
    rw [hcount, ok_bind]
    have hadd : addU64 (slotsOf ot).length s.freeListLen = .ok s.bumpIndex := by
      unfold addU64
      rw [hsum, if_pos (show s.bumpIndex < U64 from h.range)]
    rw [hadd, ok_bind, (assertThat_ok (u := ())).2 (by simp), ok_bind]
    exact checkFree_iff.2 ⟨free, h.freeLen.symm, h.chain⟩

/-- C108: where it does not pass it panics; it does not run for ever, whatever the bytes are. -/
theorem C108_total (s : Slab) : s.checkInvariants = .ok () ∨ s.checkInvariants = .error .panic := by
  have hget : ∀ h, (∃ n, s.getNode h = .ok n) ∨ s.getNode h = .error .panic := get_total s
  have hfree : ∀ n head, checkFree s.getNode n head = .ok () ∨ checkFree s.getNode n head = .error .panic := by
    intro n
    induction n with
    | zero => intro head; left; rfl
    | succ n ih =>
      intro head
      cases n with
      | zero =>
        rw [checkFree]
        rcases hget head with ⟨x, hx⟩ | hx
        · rw [hx]; cases x <;> simp [Bind.bind, Except.bind]
        · right; rw [hx]; rfl
      | succ n =>
        rw [checkFree]
        rcases hget head with ⟨x, hx⟩ | hx
        · rw [hx]
          cases x <;> simp [Bind.bind, Except.bind]
          exact ih _
        · right; rw [hx]; rfl
  have htree : (∃ c, s.checkTree = .ok c) ∨ s.checkTree = .error .panic := by
    unfold Slab.checkTree
    split
    · left; exact ⟨_, rfl⟩
    · rcases hget s.rootNode with ⟨x, hx⟩ | hx
      swap
      · right; rw [hx]; rfl
      rw [hx, ok_bind]
      cases x with
      | inner p k c0 c1 =>
        simp only [Node.key!, ok_bind]
        rcases checkRec_total (s := s) (fuel := 129) (h := c0) (p := p) (k := k) (c := 1) (b := false) (by omega) (by omega) with ⟨d, hd⟩ | hd
        swap
        · right; rw [hd]; rfl
        rw [hd, ok_bind]
        exact checkRec_total (by omega) (by omega)
      | leaf k cb q => left; exact ⟨_, rfl⟩
      | _ => right; rfl
  unfold Slab.checkInvariants
  rcases htree with ⟨c, hc⟩ | hc
  swap
  · right; rw [hc]; rfl
  rw [hc, ok_bind]
  unfold addU64
  split
  swap
  · right; rfl
  rw [ok_bind]
  unfold assertThat
  split
  · exact hfree _ _
  · right; rfl

/-- C108: no slot is used twice in a slab that passes. -/
theorem C108_distinct (h : Checked s ot free) : (slotsOf ot ++ free).Nodup := by
  refine List.nodup_append.2 ⟨?_, chain_nodup h.chain, ?_⟩
  · cases ot with
    | none => exact List.nodup_nil
    | some t => exact tree_nodup (h.stored t rfl) (h.bits t rfl) (h.common t rfl)
  · rintro x hx y hy rfl
    obtain ⟨m, hm⟩ := chain_kind h.chain hy
    cases ot with
    | none => cases hx
    | some t =>
      obtain ⟨n, p, hn, hp⟩ := slots_kind (h.stored t rfl) hx
      rcases hm with hm | hm
      · rw [hm] at hn; cases hn; cases hp
      · rw [hm] at hn; cases hn; cases hp

/-- C108: in a slab that passes, the ids grow from left to right. -/
theorem C108_sorted (h : Checked s (some t) free) : t.orders.Pairwise (fun a b => a.id < b.id) :=
  sorted_of (h.bits t rfl) (h.common t rfl)

/-- C108: in a slab that passes, `find_by_key` finds the slot of the order with this id, and nothing if there is none. -/
theorem C108_find (h : Checked s (some t) free) {k : Nat} (hk : k < 2 ^ 128) :
    ∃ F r, (∀ fuel, F ≤ fuel → s.findByKey k fuel = .ok r) ∧
      ∀ slot, r = some slot ↔ slot ∈ t.leafSlots ∧ ∃ o ∈ t.orders, o.id = k ∧ s.getNode slot = .ok (.leaf o.id o.cb o.qty) := by
  have h0 : s.leafCount ≠ 0 := fun h0 => by have := h.empty.2 h0; cases this
  obtain ⟨F, r, h1, h2⟩ := find_tree hk (h.stored t rfl) (h.bits t rfl) (h.common t rfl)
  refine ⟨F, r, fun fuel hf => ?_, h2⟩
  unfold Slab.findByKey
  rw [if_neg h0, h.root t rfl, h1 fuel hf]

/-- C108: nothing is found in an empty slab. -/
theorem C108_find_empty (h : Checked s none free) (k fuel : Nat) : s.findByKey k fuel = .ok none := by
  unfold Slab.findByKey
  rw [if_pos (h.empty.1 rfl)]

/-- C108: well-formed slabs (C86) pass, if their inner nodes have the right keys. -/
theorem C108_good (h : Good s ot free) (hc : ∀ x, ot = some x → x.Common) : s.checkInvariants = .ok () := by
  refine C108_check.2 ⟨ot, free, ⟨?_, h.root, h.stored, h.bits, hc, h.chain, h.freeLen, h.count, ?_⟩⟩
  · rw [h.leaves]
    cases ot with
    | none => simp [ordersOf]
    | some t => simp [ordersOf, orders_ne]
  · have := h.bump; omega

/-- C108: after any sequence of removals the check still passes. -/
theorem C108_removals (h : Good s ot free) (hc : ∀ x, ot = some x → x.Common) (ks : List Nat) :
    ∃ s', (∃ F, ∀ fuel, F ≤ fuel → removeAll fuel ks s = .ok s') ∧ s'.checkInvariants = .ok () := by
  obtain ⟨s', t', free', h1, h2, -, -, h3⟩ := C86_removals ks h
  exact ⟨s', h1, C108_good h2 (h3 hc)⟩

/-! ### Concrete cases -/

theorem opened_common : openedTree.Common := by
  refine ⟨fun o ho j hj => ?_, ⟨fun o ho j hj => ?_, trivial, trivial⟩, trivial⟩
  · refine Agree.symm (p := 63) ((lz_ge_iff (by decide) ?_ (by decide)).1 ?_) j hj
    all_goals revert ho o; decide +kernel
  · refine Agree.symm (p := 127) ((lz_ge_iff (by decide) ?_ (by decide)).1 ?_) j hj
    all_goals revert ho o; decide +kernel

theorem opened_check : opened.checkInvariants = .ok () := C108_good opened_good (by rintro _ ⟨⟩; exact opened_common)

example := C108_removals opened_good (by rintro _ ⟨⟩; exact opened_common) [10 * 2 ^ 64, 5]

/-- The slab `opened` is one that is checked. -/
theorem opened_checked : Checked opened (some openedTree) [] where
  empty := by decide
  root := opened_good.root
  stored := opened_good.stored
  bits := opened_good.bits
  common := by rintro _ ⟨⟩; exact opened_common
  chain := trivial
  freeLen := rfl
  count := by decide
  range := by decide

example := C108_distinct opened_checked
example := C108_sorted opened_checked
example := C108_find opened_checked (k := 10 * 2 ^ 64 + 1) (by decide)
example : (opened.findByKey (10 * 2 ^ 64 + 1) 9).toOption = some (some 4) ∧
    (opened.findByKey (10 * 2 ^ 64 + 7) 9).toOption = some none := by decide +kernel
example := C108_find_empty (s := { opened with leafCount := 0, bumpIndex := 0 }) (free := [])
  ⟨by decide, by simp, by simp, by simp, by simp, trivial, rfl, rfl, by decide⟩ 5 5

/-- C108: a wrong number of orders goes unnoticed, unlike in the program (C76), and so does an order in a slot that was never
given out. -/
theorem C108_blind_witness : ({ opened with leafCount := 99 } : Slab).checkInvariants = .ok () ∧
    ({ opened with leafCount := 1, rootNode := 4, bumpIndex := 1 } : Slab).checkInvariants = .ok () :=
  ⟨ok_of (by decide +kernel), ok_of (by decide +kernel)⟩

/-- It notices a wrong key, a slot that is lost, and a key below the wrong node. -/
example : ({ opened with bumpIndex := 6 } : Slab).checkInvariants.toOption = none ∧
    ({ opened with freeListLen := 1 } : Slab).checkInvariants.toOption = none ∧
    ({ opened with rootNode := 1 } : Slab).checkInvariants.toOption = none := by decide +kernel

end AOB.Wasm
