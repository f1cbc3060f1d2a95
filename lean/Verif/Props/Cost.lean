import Verif.Proofs.Cost
import Verif.Props.SlabMap
import Verif.Props.Commute
/-
The work of an instruction is bounded, whatever the size of the book (C93).
-/
namespace AOB
open Tick
variable {C : Type}

/-! ### Lemmas -/

/-- The rounds of the loop of `remove_by_key` from any node above the order: one for every inner node on the way, and
one for the leaf. -/
theorem removeWalkT_exact (s : Slab C) {e : Entry C} (t : Tree C) : ∀ (f : Nat) (r : Slab.RemoveRegs),
    t.Mem s.leafNodes s.innerNodes s.callbackInfos → t.Wf → e ∈ t.ents → t.depth < f → r.child = t.handle →
    (s.removeWalkT e.key f r).cost = (partings (t.ents.map Entry.key) e.key).length + 1 := by
  induction t with
  | leaf e' =>
    intro f r hm hw he hf hr
    cases f with
    | zero => simp at hf
    | succ f =>
      have h1 : partings [e'.key] e'.key = [] := by simp [partings]
      simp only [Tree.ents, List.mem_singleton] at he
      subst he
      unfold Slab.removeWalkT
      rw [hr, hm.handle_leaf, if_neg (by decide), show (Tree.leaf e).handle = e.slot from rfl, idx_eq hm.2.1]
      simp only [Tree.ents, List.map_cons, List.map_nil, h1, round_cost]
      show (Tick.bind _ _).cost + 1 = 1
      simp [Tick.bind]
  | node i nk p l r ihl ihr =>
    intro f g hm hw he hf hg
    cases f with
    | zero => simp at hf
    | succ f =>
      have hfull := hw
      have hi := hm.1
      obtain ⟨hp, hnk, hpl, hpr, hwl, hwr⟩ := hw
      have hstep : (s.removeWalkT e.key (f + 1) g).cost = (s.removeWalkT e.key f
          ⟨some (g.parent, g.critBit), g.child, if e.key.testBit (127 - p) then r.handle else l.handle,
            e.key.testBit (127 - p)⟩).cost + 1 := by
        conv_lhs => unfold Slab.removeWalkT
        rw [hg, show (Tree.node i nk p l r).handle = notU32 i from rfl, if_pos (isInner_not hi),
          notU32_notU32 (by omega), idx_eq hm.2.1, round_cost]
        congr 1
        show (Tick.bind _ _).cost = _
        simp only [Tick.bind, free_res]
        show _ + (Tick.bind _ _).cost = _
        rw [walkDown_ok hp]
        simp only [Tick.bind, free_res, free_cost, Nat.zero_add, InnerNode.child]
      rw [hstep]
      simp only [Tree.depth] at hf
      rcases List.mem_append.1 he with he | he
      · rw [hfull.partings_left he, (hpl e he).2]
        simp only [Bool.false_eq_true, if_false]
        rw [ihl f _ hm.2.2.1 hwl he (by omega) rfl]
      · rw [hfull.partings_right he, (hpr e he).2]
        simp only [if_true]
        rw [ihr f _ hm.2.2.2 hwr he (by omega) rfl]

theorem SRep.removeByKeyT_exact {s : Slab C} {os} (hs : SRep s os) {o : Order C} (ho : o ∈ os) :
    (s.removeByKeyT o.id).cost = (partings (os.map Order.id) o.id).length := by
  obtain ⟨es, ⟨ot, hr, rfl⟩, rfl⟩ := hs
  obtain ⟨e, he, rfl⟩ := List.mem_map.1 ho
  rw [List.map_map, show (Order.id ∘ Entry.order : Entry C → Nat) = Entry.key from rfl]
  show (s.removeByKeyT e.key).cost = (partings ((oents ot).map Entry.key) e.key).length
  cases ot with
  | none => simp [oents] at he
  | some t =>
    have hinl := hr.inners_le
    have hdl := t.depth_le_inners
    unfold Slab.removeByKeyT
    rw [if_neg (by rw [hr.count_zero]; simp)]
    show (Tick.bind _ _).cost = _
    unfold Slab.removeStart
    rw [hr.root_eq]
    have hm := hr.mem
    have hw := hr.wf
    cases t with
    | leaf e' =>
      simp only [oents, Tree.ents, List.mem_singleton] at he
      subst he
      have h1 : partings [e.key] e.key = [] := by simp [partings]
      rw [hm.handle_leaf, if_neg (by decide), show (Tree.leaf e).handle = e.slot from rfl, idx_eq hm.2.1]
      simp only [oents, Tree.ents, List.map_cons, List.map_nil, h1, ok_bind, if_true, Tick.bind, free_res, free_cost]
      rfl
    | node i nk p l r =>
      have hi := hm.1
      have hp := hw.1
      rw [show (Tree.node i nk p l r).handle = notU32 i from rfl, if_pos (isInner_not hi),
          notU32_notU32 (by omega), idx_eq hm.2.1, ok_bind, walkDown_ok hp, ok_bind]
      simp only [Tick.bind, free_res, free_cost, Nat.zero_add, InnerNode.child]
      have hfree : ∀ {α β : Type} (x : Tick α) (g : α → Res β), (x >>= fun a => free (g a)).cost = x.cost := by
        intro α β x g
        show (Tick.bind _ _).cost = _
        unfold Tick.bind
        cases x.res <;> simp
      rw [hfree]
      simp only [Tree.depth] at hdl
      simp only [oents]
      rcases List.mem_append.1 he with he | he
      · rw [hw.partings_left he, (hw.2.2.1 e he).2]
        simp only [Bool.false_eq_true, if_false]
        rw [removeWalkT_exact s l _ _ hm.2.2.1 hw.2.2.2.2.1 he (by omega) rfl]
      · rw [hw.partings_right he, (hw.2.2.2.1 e he).2]
        simp only [if_true]
        rw [removeWalkT_exact s r _ _ hm.2.2.2 hw.2.2.2.2.2 he (by omega) rfl]

theorem bind_free_cost {α β : Type} (x : Tick α) (g : α → Res β) : (x >>= fun a => free (g a)).cost = x.cost := by
  show (Tick.bind _ _).cost = _
  unfold Tick.bind
  cases x.res <;> simp

theorem cancelOrderT_cost (m : Market C) (id : Nat) :
    (m.cancelOrderT id).cost = ((m.book.getTree (sideOfId id)).removeByKeyT id).cost := by
  unfold Market.cancelOrderT
  rw [sideOfId_eq]
  show (Tick.bind _ _).cost = _
  unfold Tick.bind
  cases ((m.book.getTree (sideOfId id)).removeByKeyT id).res with
  | error e => rfl
  | ok x =>
    obtain ⟨_ | y, s⟩ := x
    · rfl
    · simp only
      cases fp32MulFloor y.1.baseQuantity y.1.price <;> rfl

variable [CallbackInfo C] {c : Config} {is : List (Instr C)} {m : Market C}

/-! ### C93 -/

/-- C93. Counting the rounds changes nothing else. -/
theorem C93_same (m : Market C) (i : Instr C) : (m.execT i).res = m.exec i := m.execT_res i

/-- C93. The rounds of the loops of an instruction, whether it succeeds or fails. A descent in a tree of `n` orders takes at
most `n` rounds and at most 129. A new order makes at most `match_limit` rounds of matching, and at most one more than the
queue has room for events; each of them has two descents on the other side, and posting has four on the own side. -/
theorem C93_work (h : ReachBy c is m) {i : Instr C} (hi : i.Ok) :
    match i with
    | .newOrder p => (m.execT i).cost ≤
        min p.matchLimit (c.capEvents - (pending m).length + 1) * (2 * min 129 (resting m p.side.opposite).length + 1) +
          4 * min 129 (resting m p.side).length
    | .cancelOrder id => (m.execT i).cost ≤ min 129 (resting m (sideOfId id)).length
    | .massCancelOrders ids => (m.execT i).cost ≤
        (ids.map fun id => min 129 (resting m (sideOfId id)).length + 1).sum
    | .consumeEvents _ => (m.execT i).cost = 0 := by
  obtain ⟨hk, _, hsp⟩ := h.known
  have hr := hk.rep
  cases i with
  | newOrder p =>
    simp only
    have hroom : roomOf m.queue = c.capEvents - (pending m).length := by
      unfold roomOf
      have h1 := hr.queue.2.1
      rw [List.length_map] at h1
      rw [hr.capEvents, hr.pending, ← h1, hsp.capEvents]
      rfl
    rw [hr.resting, hr.resting, ← hroom]
    show (m.newOrderT p >>= fun x => free (.ok (some x.1, x.2))).cost ≤ _
    rw [bind_free_cost]
    unfold Market.newOrderT
    refine (Bnd.freeBind (R := fun _ => True) fun _ _ => Bnd.ite (fun _ => .error) fun _ => Bnd.ite (fun _ => .error)
      fun _ => ⟨?_, fun _ _ => trivial⟩).1
    rw [bind_free_cost]
    exact newOrderT_cost (hr.tree p.side) (hr.tree p.side.opposite) hr.queue.1.count hi.1
  | cancelOrder id =>
    simp only
    show (m.cancelOrderT id >>= fun x => free (.ok (some x.1, x.2))).cost ≤ _
    rw [bind_free_cost, cancelOrderT_cost, hr.resting]
    exact (SRep.removeByKeyT_cost (hr.tree _) id).trans (by rw [length_prio]; exact le_rfl)
  | massCancelOrders ids =>
    simp only
    show (m.massCancelOrdersT ids >>= fun x => free (.ok (some x.1, x.2))).cost ≤ _
    rw [bind_free_cost]
    unfold Market.massCancelOrdersT
    rw [bind_free_cost]
    refine (massCancelLoopT_cost (fun side => (resting m side).length) ids 0 0 m.book _ (fun side => hr.tree side) ?_).trans ?_
    · intro side; rw [length_prio, hr.resting]
    · refine le_of_eq ?_
      congr 1
      apply List.map_congr_left
      intro id _
      rw [sideOfId_eq]
      rfl
  | consumeEvents n =>
    simp only
    show (free (m.consumeEvents n) >>= fun x => free (.ok (none, x))).cost = 0
    rw [bind_free_cost]
    rfl

/-- C93. In particular no instruction's work grows with the number of orders in the book, with the number of events waiting,
or with the sizes of the accounts. -/
theorem C93_flat (h : ReachBy c is m) {i : Instr C} (hi : i.Ok) :
    (m.execT i).cost ≤ match i with
      | .newOrder p => 259 * p.matchLimit + 516
      | .cancelOrder _ => 129
      | .massCancelOrders ids => 130 * ids.length
      | .consumeEvents _ => 0 := by
  have hw := C93_work h hi
  cases i with
  | newOrder p =>
    simp only at hw ⊢
    refine hw.trans (Nat.add_le_add ?_ (by omega))
    rw [Nat.mul_comm 259]
    exact Nat.mul_le_mul (Nat.min_le_left _ _) (by omega)
  | cancelOrder id => exact hw.trans (Nat.min_le_left _ _)
  | massCancelOrders ids =>
    simp only at hw ⊢
    refine hw.trans ?_
    clear hw hi
    induction ids with
    | nil => exact le_rfl
    | cons id ids ih =>
      rw [List.map_cons, List.sum_cons, List.length_cons]
      have : min 129 (resting m (sideOfId id)).length ≤ 129 := Nat.min_le_left _ _
      omega
  | consumeEvents n => exact hw.le

/-- C93. Even without a match limit, the work of a new order is bounded by the free slots of the event queue. -/
theorem C93_queue (h : ReachBy c is m) {p : NewOrderParams C} (hi : (Instr.newOrder p).Ok) :
    (m.execT (.newOrder p)).cost ≤ 259 * (c.capEvents - (pending m).length + 1) + 516 := by
  refine (C93_work h hi).trans (Nat.add_le_add ?_ (by omega))
  rw [Nat.mul_comm 259]
  exact Nat.mul_le_mul (Nat.min_le_right _ _) (by omega)

/-- C93. The work of cancelling an order is exactly the number of bits at which its id parts from the id of another order
of the same side: it depends on the resting ids only, not on how the book came about. -/
theorem C93_cancel_exact (h : ReachBy c is m) (hlen : is.length ≤ 2 ^ 63) {side : Side} {o : Order C}
    (ho : o ∈ resting m side) :
    (m.execT (.cancelOrder o.id)).cost = (partings ((resting m side).map Order.id) o.id).length := by
  obtain ⟨hk, hseq, _⟩ := h.known
  have hr := hk.rep
  show (m.cancelOrderT o.id >>= fun x => free (.ok (some x.1, x.2))).cost = _
  have hside : sideOfId o.id = side := (hk.inv.ok side o (by rw [← hr.resting]; exact ho)).sideOfId (by omega)
  rw [bind_free_cost, cancelOrderT_cost, hside]
  rw [hr.resting] at ho ⊢
  rw [SRep.removeByKeyT_exact (hr.tree side) (mem_prio.2 ho)]
  congr 1
  apply partings_perm
  refine List.Perm.map _ ?_
  cases side
  · exact List.reverse_perm _
  · exact List.Perm.refl _

/-- C93. Conversely, matching is counted: there are at least half as many rounds as events, the event of an eviction apart. -/
theorem C93_events (h : ReachBy c is m) {p : NewOrderParams C} (hi : (Instr.newOrder p).Ok) {s : OrderSummary}
    {m' : Market C} (he : m.newOrder p = .ok (s, m')) :
    (pending m').length ≤ (pending m).length + 2 * (m.execT (.newOrder p)).cost + 1 := by
  obtain ⟨hk, _, _⟩ := h.known
  have hx : m.exec (.newOrder p) = .ok (some s, m') := by simp only [Market.exec, he]; rfl
  obtain ⟨a', _, hk'⟩ := hk.exec_ok hi hx
  have h1 := hk.rep.queue.2.1
  have h2 := hk'.rep.queue.2.1
  rw [List.length_map] at h1 h2
  rw [hk.rep.pending, hk'.rep.pending, h1, h2]
  show _ ≤ _ + 2 * (m.newOrderT p >>= fun x => free (.ok (some x.1, x.2))).cost + 1
  rw [bind_free_cost]
  have hr : (m.newOrderT p).res = .ok (s, m') := by rw [Market.newOrderT_res, he]
  unfold Market.newOrderT at hr ⊢
  obtain ⟨r, _, hr, hc⟩ := bind_inv hr
  rw [hc]
  split at hr
  · cases hr
  · rename_i h3
    split at hr
    · cases hr
    · rename_i h4
      rw [if_neg h3, if_neg h4]
      obtain ⟨x, hxb, hr, hc⟩ := bind_inv hr
      rw [hc]
      obtain ⟨xs, xb, xq⟩ := x
      cases hr
      have := newOrderT_low hxb
      simp only
      omega

/-! ### A concrete case -/

/-- In the demo (three orders on either side, the own side full) the taker makes three rounds of matching with two descents each,
finds the own side full, looks for the worst bid, removes it, and inserts its own. -/
example : (demo.execT (.newOrder demoTake)).cost = 18 ∧ 18 ≤ 259 * demoTake.matchLimit + 516 :=
  ⟨by decide +kernel, by decide +kernel⟩

/-- The hypotheses of `C93_work`, and what it says here: ten rounds of matching at most, each with two descents of at most three
nodes, and four descents for posting. -/
example : (demo.execT (.newOrder demoTake)).cost ≤ 10 * 7 + 12 :=
  (C93_work demo_reachBy demoTake_ok).trans (by decide +kernel)

/-- The hypotheses of `C93_cancel_exact`: the best ask of the demo parts from the two others at two bits. -/
example : ∃ o ∈ resting demo .ask, (demo.execT (.cancelOrder o.id)).cost = 2 ∧
    partings ((resting demo .ask).map Order.id) o.id = [1, 96] := by
  have h : (resting demo .ask).head? = some ⟨10 * 2 ^ 96, 5, ⟨1, 7⟩⟩ := by decide +kernel
  have ho := List.mem_of_mem_head? h
  have hp : partings ((resting demo .ask).map Order.id) (10 * 2 ^ 96) = [1, 96] := by decide +kernel
  refine ⟨_, ho, ?_, hp⟩
  rw [C93_cancel_exact demo_reachBy (by decide +kernel) ho]
  exact congrArg List.length hp

/-- A cancellation of an unknown order fails, and its work is counted and bounded all the same. -/
example : demo.exec (.cancelOrder 12345) = .error (.ao .orderNotFound) ∧ (demo.execT (.cancelOrder 12345)).cost = 2 ∧
    (demo.execT (.cancelOrder 12345)).cost ≤ 3 :=
  ⟨by decide +kernel, by decide +kernel, (C93_work (i := .cancelOrder 12345) demo_reachBy (by decide +kernel)).trans (by decide +kernel)⟩

example := C93_same demo (.newOrder demoTake)
example := C93_flat demo_reachBy demoTake_ok
example := C93_queue demo_reachBy demoTake_ok
example := C93_events demo_reachBy demoTake_ok demo_take

end AOB
