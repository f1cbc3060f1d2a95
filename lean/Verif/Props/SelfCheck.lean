import Verif.Proofs.SelfCheck
import Verif.Props.SlabMap
import Verif.Props.Chain
/-
C76: the code base's own check of a slab, `check_invariants` (`critbit.rs` 496-600).
-/
set_option linter.unusedSectionVars false

namespace AOB

section
variable {C : Type}

/-- C76. The check passes on every slab, after any sequence of operations. -/
theorem C76_slab {cap : Nat} {c0 : C} {ops : List (SOp C)} {s : Slab C} (h : SReach cap c0 ops s) :
    s.checkInvariants = .ok () := by
  obtain ⟨os, ⟨es, ⟨ot, hr, rfl⟩, rfl⟩, _, _, _⟩ := h.rep
  exact hr.checkInvariants

/-- The iterators of a slab that passes, with its tree. -/
theorem check_iter {s : Slab C} (hs : s.Fits) (hc : s.checkInvariants = .ok ())
    (hroot : s.header.leafCount = 1 → s.header.rootNode < s.leafNodes.length) :
    (s.header.leafCount = 0 ∧ ∀ asc, s.iterAll asc = .ok []) ∨
      ∃ t : Tree Unit, s.header.leafCount ≠ 0 ∧ t.handle = s.header.rootNode ∧
        t.Mem s.leafNodes s.innerNodes s.bare.callbackInfos ∧ t.Wf ∧ t.depth ≤ s.innerNodes.length ∧
        t.ents.length = s.header.leafCount ∧ ∀ asc, s.iterAll asc = .ok ((t.ordered asc).map Entry.node) := by
  rcases check_tree hs hc hroot with h0 | ⟨t, h1, h2, h3, h4, h5⟩
  · refine .inl ⟨h0, fun asc => ?_⟩
    unfold Slab.iterAll Slab.iterCollect
    rw [if_pos h0, iterNext_nil]
    rfl
  · have h0 : s.header.leafCount ≠ 0 := by
      rw [← h5]; exact fun h => t.ents_ne_nil (List.length_eq_zero_iff.1 h)
    have hle : t.ents.length ≤ s.leafNodes.length := by
      have hnd : (t.ents.map Entry.slot).Nodup := by
        rw [List.nodup_iff_pairwise_ne, List.pairwise_map]
        refine h3.sorted.imp_of_mem ?_
        intro a b ha hb hab he
        have ha' := (h2.ents_mem a ha).2.1
        have hb' := (h2.ents_mem b hb).2.1
        rw [he, hb'] at ha'
        simp only [Option.some.injEq, LeafNode.mk.injEq] at ha'
        omega
      have hsub : t.ents.map Entry.slot ⊆ List.range s.leafNodes.length := by
        intro i hi
        obtain ⟨e, he, rfl⟩ := List.mem_map.1 hi
        exact List.mem_range.2 (lt_of_getElem? (h2.ents_mem e he).2.1)
      have := (List.subperm_of_subset hnd hsub).length_le
      simpa using this
    refine .inr ⟨t, h0, h1, h2, h3, h4, h5, fun asc => ?_⟩
    have := iterCollect_spec s.bare asc (s.leafNodes.length + 1) [t]
      (by
        intro u hu
        simp only [List.mem_singleton] at hu
        subst hu
        exact ⟨h2, h4⟩)
      (by cases asc <;> simp [Tree.ordered] <;> omega)
    rw [iterCollect_bare] at this
    unfold Slab.iterAll
    rw [if_neg h0, ← h1]
    simpa using this

/-- C76. Conversely, the check is worth having: on any slab whatsoever on which it passes, iteration from either end
shows as many leaves as the header says, in strictly ascending (descending) order of their keys; and if there is just
one leaf, this needs the root to be a slot of the leaf array, which the check does not look at. -/
theorem C76_sound_iteration {s : Slab C} (hs : s.Fits) (hc : s.checkInvariants = .ok ())
    (hroot : s.header.leafCount = 1 → s.header.rootNode < s.leafNodes.length) :
    ∃ ls, s.iterAll true = .ok ls ∧ s.iterAll false = .ok ls.reverse ∧ ls.length = s.header.leafCount ∧
      ls.Pairwise (fun a b => a.orderId < b.orderId) := by
  rcases check_iter hs hc hroot with ⟨h0, hi⟩ | ⟨t, _, _, _, hw, _, hn, hi⟩
  · exact ⟨[], hi true, hi false, by simp [h0], .nil⟩
  · refine ⟨t.ents.map Entry.node, by simpa [Tree.ordered] using hi true, ?_, by simpa using hn, ?_⟩
    · simpa [Tree.ordered] using hi false
    · rw [List.pairwise_map]; exact hw.sorted

/-- C76. On a slab on which the check passes, `find_by_key` finds a key exactly if iteration shows it. -/
theorem C76_sound_lookup {s : Slab C} (hs : s.Fits) (hc : s.checkInvariants = .ok ())
    (hroot : s.header.leafCount = 1 → s.header.rootNode < s.leafNodes.length) {k : Nat} (hk : k < 2 ^ 128) {ls}
    (hls : s.iterAll true = .ok ls) :
    (∃ n ∈ ls, n.orderId = k ∧ ∃ i, s.findByKey k = .ok (some i) ∧ s.leafNodes[i]? = some n) ∨
      ((∀ n ∈ ls, n.orderId ≠ k) ∧ s.findByKey k = .ok none) := by
  rcases check_iter hs hc hroot with ⟨h0, hi⟩ | ⟨t, h0, h1, h2, h3, h4, hn, hi⟩
  · rw [hi true] at hls
    obtain rfl := Except.ok.inj hls
    right
    refine ⟨by simp, ?_⟩
    unfold Slab.findByKey Slab.root
    rw [if_pos h0]
  · rw [hi true] at hls
    obtain rfl := Except.ok.inj hls
    have hf : s.findByKey k = s.bare.findByKeyWalk k (s.innerNodes.length + 1) t.handle := by
      unfold Slab.findByKey Slab.root
      rw [if_neg h0, findByKeyWalk_bare, h1]
    rcases findByKeyWalk_spec s.bare k hk t (s.innerNodes.length + 1) h2 h3 (by omega) with ⟨e, he, rfl, hw⟩ | ⟨hno, hw⟩
    · left
      exact ⟨e.node, List.mem_map_of_mem (by simpa [Tree.ordered] using he), rfl, e.slot, hf.trans hw,
        (h2.ents_mem e he).2.1⟩
    · right
      refine ⟨?_, hf.trans hw⟩
      intro n hn
      obtain ⟨e, he, rfl⟩ := List.mem_map.1 hn
      exact hno e (by simpa [Tree.ordered] using he)

/-- C76. On a slab on which the check passes, `find_min` and `find_max` find the ends of what iteration shows. -/
theorem C76_sound_ends {s : Slab C} (hs : s.Fits) (hc : s.checkInvariants = .ok ())
    (hroot : s.header.leafCount = 1 → s.header.rootNode < s.leafNodes.length) {ls} (hls : s.iterAll true = .ok ls) :
    (ls = [] ∧ s.findMin = .ok none ∧ s.findMax = .ok none) ∨
      ∃ i j, s.findMin = .ok (some i) ∧ s.findMax = .ok (some j) ∧ s.leafNodes[i]? = ls.head? ∧
        s.leafNodes[j]? = ls.getLast? ∧ ls ≠ [] := by
  rcases check_iter hs hc hroot with ⟨h0, hi⟩ | ⟨t, h0, h1, h2, h3, h4, hn, hi⟩
  · rw [hi true] at hls
    obtain rfl := Except.ok.inj hls
    left
    refine ⟨rfl, ?_, ?_⟩ <;> simp [Slab.findMin, Slab.findMax, Slab.findMinMax, h0]
  · rw [hi true] at hls
    obtain rfl := Except.ok.inj hls
    right
    obtain ⟨e, he, hw⟩ := findMinWalk_spec s.bare t (s.innerNodes.length + 1) h2 (by omega)
    obtain ⟨f, hf, hx⟩ := findMaxWalk_spec s.bare t (s.innerNodes.length + 1) h2 (by omega)
    rw [findMinMaxWalk_bare, h1] at hw hx
    refine ⟨e.slot, f.slot, ?_, ?_, ?_, ?_, ?_⟩
    · unfold Slab.findMin Slab.findMinMax
      rw [if_neg h0, hw]; rfl
    · unfold Slab.findMax Slab.findMinMax
      rw [if_neg h0, hx]; rfl
    · rw [List.head?_map]
      simp only [Tree.ordered, if_true, he]
      exact (h2.ents_mem e (List.mem_of_mem_head? he)).2.1
    · rw [List.getLast?_map]
      simp only [Tree.ordered, if_true, hf]
      exact (h2.ents_mem f (List.mem_of_mem_getLast? hf)).2.1
    · simpa [Tree.ordered] using t.ents_ne_nil

end

section
variable {C : Type} [CallbackInfo C]

/-- C76. The check passes on both sides of every market that can arise. -/
theorem C76_market {m : Market C} (h : Reachable m) :
    m.book.bids.checkInvariants = .ok () ∧ m.book.asks.checkInvariants = .ok () := by
  obtain ⟨a, hk⟩ := h.known
  obtain ⟨_, ⟨_, hb, rfl⟩, _⟩ := hk.1.tree .bid
  obtain ⟨_, ⟨_, ha, rfl⟩, _⟩ := hk.1.tree .ask
  exact ⟨hb.checkInvariants, ha.checkInvariants⟩

end

namespace Chain
variable {C : Type} [Pod C] [CallbackInfo C] [Borsh C] {env : Env} {R : Pubkey → Prop} {w : World} {k : Pubkey}
  {m : Market C}

/-- C76. The check passes on both sides of every market on the chain, after any history. -/
theorem C76_chain (hw : OnChain env C R w) (hR : ¬ R k) (hM : IsMarket env w k) (hm : loadMarket C w k = .ok m) :
    m.book.bids.checkInvariants = .ok () ∧ m.book.asks.checkInvariants = .ok () :=
  C76_market (C54_reachable hw hR hM hm)

end Chain

/-! ### Concrete cases -/

example := C76_slab demoSlab
example := C76_market demo_reachable
example (m : Market Bytes32) (hm : loadMarket Bytes32 DemoChain.w4 (DemoChain.key 1) = .ok m) :=
  Chain.C76_chain DemoChain.onChain_w4 (k := DemoChain.key 1) (by show DemoChain.key 1 ≠ DemoChain.key 6; decide +kernel)
    (Accounts.demo_isMarket (by decide +kernel)) hm

/-- The slab of `demoSOps`: three orders, of which two were moved into freed slots. -/
def demoChecked : Slab Nat := ((Slab.zeroed 2 0).applyAll demoSOps).2

theorem demoChecked_fits : demoChecked.Fits := by
  unfold Slab.Fits SlabHeader.Fits LeafNode.Fits InnerNode.Fits
  decide +kernel

example := C76_sound_iteration demoChecked_fits (C76_slab demoSlab) (by decide +kernel)
example := C76_sound_lookup demoChecked_fits (C76_slab demoSlab) (by decide +kernel) (k := 11) (by omega)
  (ls := [⟨11, 8⟩, ⟨13, 2⟩, ⟨2 ^ 127, 1⟩]) (by decide +kernel)
example := C76_sound_ends demoChecked_fits (C76_slab demoSlab) (by decide +kernel)
  (ls := [⟨11, 8⟩, ⟨13, 2⟩, ⟨2 ^ 127, 1⟩]) (by decide +kernel)

/-- C76. The check accepts another key that belongs at the same place (14 for 13), notices one that does not (9), and a
wrong count. -/
theorem C76_detects :
    ({ demoChecked with leafNodes := demoChecked.leafNodes.map fun n => if n.key = 13 then ⟨14, 2⟩ else n }
      : Slab Nat).checkInvariants = .ok () ∧
    ({ demoChecked with leafNodes := demoChecked.leafNodes.map fun n => if n.key = 13 then ⟨9, 2⟩ else n }
      : Slab Nat).checkInvariants = .error .panic ∧
    ({ demoChecked with header := { demoChecked.header with leafCount := 2 } }
      : Slab Nat).checkInvariants = .error .panic := by
  decide +kernel

/-- C76. The check does not look into the free list: this slab with the orders 5 and 9 passes, but the next insertion
takes the slot of the order 5, which is lost. -/
theorem C76_gap : ∃ s s' : Slab Nat, s.checkInvariants = .ok () ∧ s.iterAll true = .ok [⟨5, 1⟩, ⟨9, 1⟩] ∧
    s.put 12 1 0 = .ok (none, s') ∧ s'.iterAll true = .ok [⟨12, 1⟩, ⟨9, 1⟩, ⟨12, 1⟩] ∧
    s'.checkInvariants = .error .panic := by
  refine ⟨⟨⟨1, 0, 3, 0, 0, 1, notU32 0, 2⟩, [⟨5, 1⟩, ⟨9, 1⟩, ⟨0, 0⟩], [⟨9, 124, 0, 1⟩, ⟨0, 0, 0, 0⟩], [0, 0, 0]⟩, _, ?_, ?_,
    rfl, ?_, ?_⟩ <;> decide +kernel

end AOB
