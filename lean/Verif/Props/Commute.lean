import Verif.Proofs.Commute
import Verif.Props.Relate
import Verif.Props.History
/-
Instructions that can be exchanged (C82); limits that do not bind (C83).
-/
namespace AOB
variable {C : Type} [CallbackInfo C] {m m' : Market C} {p : NewOrderParams C} {s : OrderSummary}

omit [CallbackInfo C] in
theorem SameShow.of_rep {m1 m2 : Market C} {a : RefMarket C} (h1 : MRep m1 a) (h2 : MRep m2 a) : SameShow m1 m2 :=
  ⟨(h1.resting .bid).trans (h2.resting .bid).symm, (h1.resting .ask).trans (h2.resting .ask).symm,
    h1.pending.trans h2.pending.symm, h1.seq.trans h2.seq.symm⟩

theorem Known.cancel {a : RefMarket C} (h : Known m a) (hseq : a.seq ≤ 2 ^ 63) {side : Side} {x : Order C}
    (hx : x ∈ resting m side) :
    ∃ mc, m.cancelOrder x.id = .ok (⟨none, x.qty, x.qty * x.price / 2 ^ 32, 0⟩, mc) ∧ Known mc (a.without x.id) := by
  have hmem : x ∈ a.all := RefMarket.mem_all.2 ⟨side, by rw [← h.rep.resting]; exact hx⟩
  have h1 := cancel1_without h.inv hseq hmem
  have hr := cancelOrder_refines h.rep (fun side o ho => (h.inv.ok side o ho).worth) x.id
  have h3 : a.cancelOrder x.id = .ok (⟨none, x.qty, x.qty * x.price / 2 ^ 32, 0⟩, a.without x.id) := by
    unfold RefMarket.cancelOrder; rw [h1]; rfl
  rw [h3] at hr
  obtain ⟨m', h4, h5⟩ := hr
  exact ⟨m', h4, h5, cancel1_inv h.inv h1, h.minBase, h.tick⟩

theorem Known.consume {a : RefMarket C} (h : Known m a) (n : Nat) :
    ∃ mc, m.consumeEvents n = .ok mc ∧ Known mc (a.withQueue a.capEvents (a.events.drop n)) := by
  have hr := exec_refines h.rep h.inv (.consumeEvents n) trivial
  obtain ⟨m', h1, h2⟩ := hr
  have h3 : m.consumeEvents n = .ok m' := by
    unfold Market.exec at h1
    simp only at h1
    cases hx : m.consumeEvents n with
    | error e => rw [hx] at h1; cases h1
    | ok y => rw [hx] at h1; cases h1; rfl
  exact ⟨m', h3, h2, exec_inv h.inv (i := .consumeEvents n) trivial rfl, h.minBase, h.tick⟩

/-- C82: a resting order `x` that `new_order` does not touch (no event names it) can be cancelled before or after that
`new_order`: all answers, all events and the resulting market are the same. There are two conditions. If `x` is then the best
of the opposite side, its price is not acceptable to the new order or the new order has traded all it wants. If `x` is on the
side of the new order and something may be posted, that side has a free place. -/
theorem C82_cancel_and_order {c is} (h : ReachBy c is m) (hlen : is.length < 2 ^ 63) (hp : (Instr.newOrder p).Ok)
    (he : m.newOrder p = .ok (s, m')) {side : Side} {x : Order C} (hx : x ∈ resting m side)
    (hev : ∀ e ∈ emitted m m', e.id ≠ x.id)
    (hstop : (resting m' p.side.opposite).head? = some x → p.side.accepts p.limitPrice x.price = false ∨
      s.totalBaseQty = p.maxBaseQty ∧ s.postedOrderId = none)
    (hroom : side = p.side.opposite ∨ (resting m p.side).length < c.cap p.side ∨ p.postAllowed = false) :
    ∃ sc mc m1 m2, m.cancelOrder x.id = .ok (sc, mc) ∧ mc.newOrder p = .ok (s, m1) ∧
      m'.cancelOrder x.id = .ok (sc, m2) ∧ SameShow m1 m2 ∧ emitted mc m1 = emitted m m' := by
  obtain ⟨hk, hseq, hpar⟩ := h.known
  have hfresh := fun i (hi : s.postedOrderId = some i) => posted_fresh h hlen hp he hi x (mem_allResting.2 ⟨side, hx⟩)
  have hcap : ((c.ref : RefMarket C).run is).cap p.side = c.cap p.side := by rw [hpar.cap, config_cap]
  have hm' : ReachBy c (is ++ [.newOrder p]) m' := by
    have := h.step (i := .newOrder p) hp
    rwa [show m.step (.newOrder p) = m' by unfold Market.step Market.exec; simp only [he]; rfl] at this
  have hx' : x ∈ resting m' side := C48_unnamed_untouched h.reachable hp he side hx hev
  generalize (c.ref : RefMarket C).run is = a at hk hseq hcap
  obtain ⟨a', h1, k'⟩ := hk.newOrder_ok hp he
  have hseq' : a'.seq ≤ 2 ^ 63 := by
    obtain ⟨n, r, hn, hc⟩ := newOrder_cases h1
    rcases hc with hc | hc | ⟨_, _, hc⟩ <;> rw [hc.seq] <;> omega
  obtain ⟨mc, c1, kc⟩ := hk.cancel (by omega) hx
  obtain ⟨m2, c2, k2⟩ := k'.cancel hseq' hx'
  have hem : emitted m m' = a'.events.drop a.events.length := by
    unfold emitted; rw [hk.rep.pending, k'.rep.pending]
  have hw := newOrder_without (id := x.id) hk.inv h1 (by rw [← hem]; exact hev)
    (by
      intro o ho hid
      rw [← k'.rep.resting] at ho
      have hmo : o ∈ resting m' p.side.opposite := List.mem_of_mem_head? ho
      have hox : o = x := by
        rw [k'.rep.resting] at hmo hx'
        by_cases hs : side = p.side.opposite
        · subst hs
          exact List.inj_on_of_nodup_map (k'.inv.nodup _) hmo hx' hid
        · exfalso
          have hs' : side = p.side := by revert hs; cases side <;> cases p.side <;> simp [Side.opposite]
          subst hs'
          exact k'.inv.ids_ne hx' hmo hid.symm
      subst hox
      exact hstop ho) hk.minBase
    (fun hs => hfresh x.id hs rfl)
    (by
      rcases hroom with rfl | hr | hr
      · left
        intro o ho
        rw [hk.rep.resting] at hx
        exact hk.inv.ids_ne ho hx
      · right; left; rw [hcap, ← hk.rep.resting]; exact hr
      · exact .inr (.inr hr))
  have hr := newOrder_refines kc.rep kc.inv p hp
  rw [hw] at hr
  obtain ⟨m1, r1, r2⟩ := hr
  refine ⟨_, mc, m1, m2, c1, r1, c2, SameShow.of_rep r2 k2.rep, ?_⟩
  rw [hem]
  unfold emitted
  rw [r2.pending, kc.rep.pending]
  rfl

/-- C82: two different resting orders can be cancelled in either order. -/
theorem C82_cancel_and_cancel {c is} (h : ReachBy c is m) (hlen : is.length ≤ 2 ^ 63) {sx sy : Side} {x y : Order C}
    (hx : x ∈ resting m sx) (hy : y ∈ resting m sy) (hne : x.id ≠ y.id) :
    ∃ s1 s2 mx my m1 m2, m.cancelOrder x.id = .ok (s1, mx) ∧ mx.cancelOrder y.id = .ok (s2, m1) ∧
      m.cancelOrder y.id = .ok (s2, my) ∧ my.cancelOrder x.id = .ok (s1, m2) ∧ SameShow m1 m2 := by
  obtain ⟨hk, hseq, _⟩ := h.known
  generalize (c.ref : RefMarket C).run is = a at hk hseq
  obtain ⟨mx, c1, k1⟩ := hk.cancel (by omega) hx
  obtain ⟨my, c2, k2⟩ := hk.cancel (by omega) hy
  have hy' : y ∈ resting mx sy := by
    rw [k1.rep.resting, orders_without, List.mem_filter, ← hk.rep.resting]
    exact ⟨hy, by simpa using Ne.symm hne⟩
  have hx' : x ∈ resting my sx := by
    rw [k2.rep.resting, orders_without, List.mem_filter, ← hk.rep.resting]
    exact ⟨hx, by simpa using hne⟩
  obtain ⟨m1, c3, k3⟩ := k1.cancel (show a.seq ≤ _ by omega) hy'
  obtain ⟨m2, c4, k4⟩ := k2.cancel (show a.seq ≤ _ by omega) hx'
  have e : (a.without x.id).without y.id = (a.without y.id).without x.id := by
    refine RefMarket.ext_orders ⟨rfl, rfl, rfl, fun side => by simp⟩ rfl rfl (fun side => ?_)
    simp only [orders_without, List.filter_filter]
    congr 1
    funext o
    exact Bool.and_comm _ _
  rw [e] at k3
  exact ⟨_, _, mx, my, m1, m2, c1, c3, c2, c4, SameShow.of_rep k3.rep k4.rep⟩

/-- C82: a resting order can be cancelled before or after any `consume_events`. -/
theorem C82_cancel_and_consume {c is} (h : ReachBy c is m) (hlen : is.length ≤ 2 ^ 63) {side : Side} {x : Order C}
    (hx : x ∈ resting m side) (n : Nat) :
    ∃ s mc mn m1 m2, m.cancelOrder x.id = .ok (s, mc) ∧ mc.consumeEvents n = .ok m1 ∧
      m.consumeEvents n = .ok mn ∧ mn.cancelOrder x.id = .ok (s, m2) ∧ SameShow m1 m2 := by
  obtain ⟨hk, hseq, _⟩ := h.known
  generalize (c.ref : RefMarket C).run is = a at hk hseq
  obtain ⟨mc, c1, k1⟩ := hk.cancel (by omega) hx
  obtain ⟨m1, c2, k2⟩ := k1.consume n
  obtain ⟨mn, c3, k3⟩ := hk.consume n
  have hx' : x ∈ resting mn side := by
    rw [k3.rep.resting, show (a.withQueue _ _).orders side = a.orders side from orders_with _ _ _ _, ← hk.rep.resting]
    exact hx
  obtain ⟨m2, c4, k4⟩ := k3.cancel (show a.seq ≤ _ by omega) hx'
  exact ⟨_, mc, mn, m1, m2, c1, c2, c3, c4, SameShow.of_rep k2.rep k4.rep⟩

/-- C82: `consume_events(n)` with no more than what is pending can be done before instead of after a `new_order` that
succeeds. -/
theorem C82_consume_and_order {c is} (h : ReachBy c is m) (hp : (Instr.newOrder p).Ok)
    (he : m.newOrder p = .ok (s, m')) {n : Nat} (hn : n ≤ (pending m).length) :
    ∃ mn m1 m2, m.consumeEvents n = .ok mn ∧ mn.newOrder p = .ok (s, m1) ∧ m'.consumeEvents n = .ok m2 ∧
      SameShow m1 m2 ∧ emitted mn m1 = emitted m m' := by
  obtain ⟨hk, hseq, _⟩ := h.known
  generalize (c.ref : RefMarket C).run is = a at hk hseq
  rw [hk.rep.pending] at hn
  obtain ⟨a', h1, k'⟩ := hk.newOrder_ok hp he
  obtain ⟨mn, c1, k1⟩ := hk.consume n
  obtain ⟨m2, c2, k2⟩ := k'.consume n
  have hmore : (a.withQueue a.capEvents (a.events.drop n)).newOrder p ≠ .error (.ao .eventQueueFull) :=
    newOrder_more h1 (by rw [List.length_drop]; omega)
  rcases newOrder_room (by rw [h1]; simp) hmore with ⟨e, g1, _⟩ | ⟨s', b', es, g1, g2, g3⟩
  · rw [h1] at g1; cases g1
  · rw [h1] at g1
    cases g1
    have hr := newOrder_refines k1.rep k1.inv p hp
    rw [show (a.withQueue a.capEvents (a.events.drop n)).newOrder p = _ from g3] at hr
    obtain ⟨m1, r1, r2⟩ := hr
    have hcap : a'.capEvents = a.capEvents := by
      obtain ⟨_, _, hn, _⟩ := newOrder_cases h1
      exact hn.params.2.2.1
    refine ⟨mn, m1, m2, c1, r1, c2, ?_, ?_⟩
    · refine SameShow.of_rep r2 ?_
      have := k2.rep
      rw [g2, List.drop_append_of_le_length hn, hcap] at this
      exact this
    · unfold emitted
      rw [r2.pending, k1.rep.pending, k'.rep.pending, hk.rep.pending, g2]
      show List.drop (a.events.drop n).length (a.events.drop n ++ es) = _
      rw [List.drop_left, List.drop_left]

/-! ### C83 -/

/-- C83: two markets with the same minimum order size and the same resting orders and sequence number, however different
their tick sizes, account sizes and pending events. An instruction (other than `consume_events`) that does not meet these
limits in either of them gets the same answer from both, emits the same events and leaves them with the same resting
orders; or both refuse it. -/
theorem C83_limits_irrelevant {c1 c2 is1 is2} {m1 m2 : Market C} (h1 : ReachBy c1 is1 m1) (h2 : ReachBy c2 is2 m2)
    (hr : c1.minBase = c2.minBase) (hs : SameTrading m1 m2) {i : Instr C} (hi : i.Ok) (hc : i.isCrank = false)
    (f1 : Unhindered c1 m1 i) (f2 : Unhindered c2 m2 i) :
    (∃ s m1' m2', m1.exec i = .ok (s, m1') ∧ m2.exec i = .ok (s, m2') ∧ SameTrading m1' m2' ∧
      emitted m1 m1' = emitted m2 m2') ∨
    (∃ e1 e2, m1.exec i = .error e1 ∧ m2.exec i = .error e2 ∧
      (e1 = e2 ∨ e1 = .ao .orderNotFound ∧ e2 = .panic ∨ e1 = .panic ∧ e2 = .ao .orderNotFound)) := by
  obtain ⟨k1, _, p1⟩ := h1.known
  obtain ⟨k2, _, p2⟩ := h2.known
  revert k1 k2 p1 p2
  generalize (c1.ref : RefMarket C).run is1 = a1
  generalize (c2.ref : RefMarket C).run is2 = a2
  intro k1 p1 k2 p2
  have hf : SameFlow a1 a2 := by
    refine ⟨?_, ?_, ?_⟩
    · rw [p1.minBase, p2.minBase]; exact hr
    · exact k1.rep.seq.symm.trans (hs.seq.trans k2.rep.seq)
    · intro side
      rw [← k1.rep.resting, ← k2.rep.resting]
      cases side
      · exact hs.bids
      · exact hs.asks
  have r1 := exec_refines k1.rep k1.inv i hi
  have r2 := exec_refines k2.rep k2.inv i hi
  have free : ∀ {c is m} {a : RefMarket C}, ReachBy c is m → Known m a → SameParams (c.ref : RefMarket C) a →
      Unhindered c m i → ∀ p, i = .newOrder p → 0 < a.tick ∧ a.newOrder p ≠ .error (.ao .invalidLimitPrice) ∧
        a.newOrder p ≠ .error (.ao .eventQueueFull) ∧ (a.orders p.side).length < a.cap p.side := by
    intro c is m a h k hp hu p hip
    subst hip
    obtain ⟨u1, u2, u3⟩ := hu
    have hx := newOrder_refines k.rep k.inv p hi
    refine ⟨k.tick, ?_, ?_, ?_⟩
    · intro he; rw [he] at hx; exact u1 hx
    · intro he; rw [he] at hx; exact u2 hx
    · rw [hp.cap, config_cap, ← k.rep.resting]; exact u3
  rcases exec_flow hf hc (free h1 k1 p1 f1) (free h2 k2 p2 f2) with ⟨e, x1, x2⟩ | ⟨s, b1, b2, es, x1, x2, x3, e1, e2⟩
  · rw [x1] at r1
    rw [x2] at r2
    right
    rcases r1 with r1 | ⟨rfl, r1⟩ <;> rcases r2 with r2 | ⟨hb, r2⟩
    · exact ⟨_, _, r1, r2, .inl rfl⟩
    · exact ⟨_, _, r1, r2, .inr (.inl ⟨hb, rfl⟩)⟩
    · exact ⟨_, _, r1, r2, .inr (.inr ⟨rfl, rfl⟩)⟩
    · exact ⟨_, _, r1, r2, .inl rfl⟩
  · rw [x1] at r1
    rw [x2] at r2
    obtain ⟨m1', y1, q1⟩ := r1
    obtain ⟨m2', y2, q2⟩ := r2
    refine .inl ⟨s, m1', m2', y1, y2, ⟨?_, ?_, ?_⟩, ?_⟩
    · rw [q1.resting, q2.resting, x3.orders]
    · rw [q1.resting, q2.resting, x3.orders]
    · exact q1.seq.trans (x3.seq.trans q2.seq.symm)
    · unfold emitted
      rw [q1.pending, q2.pending, k1.rep.pending, k2.rep.pending, e1, e2, List.drop_left, List.drop_left]

/-- C83 over histories: the sizes of the accounts and the tick size have no influence on trading as long as they are not
met, and neither has the crank. -/
theorem C83_limits_have_no_influence {c1 c2 : Config} {is1 is2 : List (Instr C)} {x1 x2 : C} (v1 : c1.Valid)
    (v2 : c2.Valid) (o1 : ∀ i ∈ is1, i.Ok) (o2 : ∀ i ∈ is2, i.Ok) (hr : c1.minBase = c2.minBase)
    (hf : is1.filter (fun i => !i.isCrank) = is2.filter (fun i => !i.isCrank))
    (f1 : Along (Unhindered c1) (c1.market x1) is1) (f2 : Along (Unhindered c2) (c2.market x2) is2) :
    SameTrading ((c1.market x1).run is1) ((c2.market x2).run is2) ∧
    (runLog (c1.market x1) is1).posted = (runLog (c2.market x2) is2).posted ∧
    (runLog (c1.market x1) is1).events = (runLog (c2.market x2) is2).events ∧
    (runLog (c1.market x1) is1).cancelled = (runLog (c2.market x2) is2).cancelled := by
  have r1 : ReachBy c1 [] (c1.market x1) := ⟨v1, by simp, x1, rfl⟩
  have r2 : ReachBy c2 [] (c2.market x2) := ⟨v2, by simp, x2, rfl⟩
  have s1 := C62_same_state r1
  have s2 := C62_same_state r2
  refine same_from (fun h1 h2 hs hi hc f1 f2 => C83_limits_irrelevant h1 h2 hr hs hi hc f1 f2) _ (le_refl _) r1 r2
    ⟨?_, ?_, ?_⟩ o1 o2 hf f1 f2
  · rw [s1.bids, s2.bids]; rfl
  · rw [s1.asks, s2.asks]; rfl
  · rw [s1.seq, s2.seq]; rfl

/-! ### Concrete cases -/

/-- User 9 buys five at up to 11, from user 1. -/
def demoFive : NewOrderParams DemoCb := demoOrder .bid 5 11 9
theorem demo_five : demo.newOrder demoFive = .ok (⟨none, 5, 50, 0⟩, demo.step (.newOrder demoFive)) := by decide +kernel

/-- `C82_cancel_and_order`: the ask of user 3, now the best; the ask of user 2; and, if nothing may be posted, a bid. -/
example := C82_cancel_and_order demo_reachBy (by decide) (by decide) demo_five (side := .ask) (x := ⟨10 * 2 ^ 96 + 2, 7, ⟨3, 7⟩⟩)
  (by decide +kernel) (by decide +kernel) (fun _ => .inr ⟨rfl, rfl⟩) (.inl rfl)
example := C82_cancel_and_order demo_reachBy (by decide) (by decide) demo_five (side := .ask) (x := ⟨11 * 2 ^ 96 + 1, 6, ⟨2, 7⟩⟩)
  (by decide +kernel) (by decide +kernel) (by decide +kernel) (.inl rfl)
theorem demo_buy4 : demo.newOrder { demoFive with maxBaseQty := 4, postAllowed := false } =
    .ok (⟨none, 4, 40, 0⟩, demo.step (.newOrder { demoFive with maxBaseQty := 4, postAllowed := false })) := by decide +kernel
example := C82_cancel_and_order demo_reachBy (by decide) (by decide) demo_buy4 (side := .bid)
  (x := ⟨9 * 2 ^ 96 + (2 ^ 64 - 1 - 3), 8, ⟨4, 7⟩⟩)
  (by decide +kernel) (by decide +kernel) (by decide +kernel) (.inr (.inr rfl))

/-- The ask side has four places and three orders: an ask at 12 is posted, and the ask at 11 could be cancelled before. -/
theorem demo_ask12 : demo.newOrder (demoOrder .ask 5 12 9) =
    .ok (⟨some (12 * 2 ^ 96 + 6), 5, 60, 5⟩, demo.step (.newOrder (demoOrder .ask 5 12 9))) := by decide +kernel
example := C82_cancel_and_order demo_reachBy (by decide) (by decide) demo_ask12 (side := .ask) (x := ⟨11 * 2 ^ 96 + 1, 6, ⟨2, 7⟩⟩)
  (by decide +kernel) (by decide +kernel) (by decide +kernel) (.inr (.inl (by decide +kernel)))

/-- The first condition is needed: a post-only bid at 10 is not posted because of the asks at 10. On a market with one such ask,
it is posted if that is cancelled before. -/
example :
    let m := (demoCfg.market ⟨0, 0⟩).run [.newOrder (demoOrder .ask 5 10 1)]
    let p := { demoOrder .bid 5 10 9 with postOnly := true }
    (m.newOrder p).map (fun x => x.1) = .ok ⟨none, 0, 0, 0⟩ ∧
    ((m.step (.cancelOrder (10 * 2 ^ 96))).newOrder p).map (fun x => x.1.totalBaseQtyPosted) = .ok 5 := by
  decide +kernel

/-- So is the second: a bid at 7 finds no place on the full bid side, unless one of the better bids is cancelled before. -/
example :
    (demo.newOrder (demoOrder .bid 5 7 9)).map (fun x => x.1) = .ok ⟨none, 0, 0, 0⟩ ∧
    ((demo.step (.cancelOrder (9 * 2 ^ 96 + (2 ^ 64 - 1 - 3)))).newOrder (demoOrder .bid 5 7 9)).map
      (fun x => x.1.totalBaseQtyPosted) = .ok 5 := by
  decide +kernel

example := C82_cancel_and_cancel demo_reachBy (by decide) (sx := .ask) (sy := .bid) (x := ⟨11 * 2 ^ 96 + 1, 6, ⟨2, 7⟩⟩)
  (y := ⟨9 * 2 ^ 96 + (2 ^ 64 - 1 - 3), 8, ⟨4, 7⟩⟩) (by decide +kernel) (by decide +kernel) (by decide)

theorem demoAfter_reachBy : ReachBy demoCfg (demoHist ++ [.newOrder demoTake]) demoAfter :=
  demo_reachBy.step demoTake_ok

/-- Six events are pending after the purchase of the demo, and three bids rest. -/
example := C82_cancel_and_consume demoAfter_reachBy (by decide) (side := .bid) (x := ⟨9 * 2 ^ 96 + (2 ^ 64 - 1 - 3), 8, ⟨4, 7⟩⟩)
  (by decide +kernel) 4

theorem demoAfter_sell : demoAfter.newOrder demoSell = .ok ((demoAfter.newOrder demoSell).toOption.get (by decide +kernel)) := by
  decide +kernel
example := C82_consume_and_order demoAfter_reachBy (p := demoSell) (by decide) demoAfter_sell (n := 4) (by decide +kernel)

/-- More than is pending must not be consumed: the events of the order itself would be gone. -/
example : (demo.step (.newOrder demoTake)).step (.consumeEvents 1) ≠ (demo.step (.consumeEvents 1)).step (.newOrder demoTake) := by
  decide +kernel

/-- Another tick size, other sizes of all accounts. -/
def otherCfg : Config := { minBase := 2, tick := 2 ^ 30, capBids := 9, capAsks := 8, capEvents := 20 }
theorem other_valid : otherCfg.Valid := by
  refine ⟨?_, ?_, ?_, ?_, ?_⟩ <;> decide

/-- Three asks, two bids, a purchase from all asks, a cancellation, a sale. -/
def quietHist : List (Instr DemoCb) :=
  [.newOrder (demoOrder .ask 5 10 1), .newOrder (demoOrder .ask 6 11 2), .newOrder (demoOrder .ask 7 10 3),
   .newOrder (demoOrder .bid 8 9 4), .newOrder demoTake, .cancelOrder (9 * 2 ^ 96 + (2 ^ 64 - 1 - 3)), .newOrder demoSell]

instance (c : Config) (m : Market DemoCb) (i : Instr DemoCb) : Decidable (Unhindered c m i) := by
  cases i <;> unfold Unhindered <;> infer_instance

theorem quiet_demo : Along (Unhindered demoCfg) (demoCfg.market ⟨0, 0⟩) quietHist := by
  refine ⟨?_, ?_, ?_, ?_, ?_, ?_, ?_, trivial⟩ <;> decide +kernel
theorem quiet_other : Along (Unhindered otherCfg) (otherCfg.market ⟨0, 0⟩) (.consumeEvents 3 :: quietHist) := by
  refine ⟨?_, ?_, ?_, ?_, ?_, ?_, ?_, ?_, trivial⟩ <;> decide +kernel

example := C83_limits_have_no_influence demo_valid other_valid (by decide +kernel) (by decide +kernel) rfl (by decide +kernel)
  quiet_demo quiet_other

example : (runLog (demoCfg.market ⟨0, 0⟩) quietHist).events.length = 7 := by decide +kernel

/-- `C83_limits_irrelevant`, on the markets after the first four orders. -/
example := C83_limits_irrelevant (c1 := demoCfg) (c2 := otherCfg) (is1 := quietHist.take 4) (is2 := quietHist.take 4)
  ⟨demo_valid, by decide +kernel, ⟨0, 0⟩, rfl⟩ ⟨other_valid, by decide +kernel, ⟨0, 0⟩, rfl⟩ rfl
  ⟨by decide +kernel, by decide +kernel, by decide +kernel⟩ (i := .newOrder demoTake) demoTake_ok rfl (by decide +kernel)
  (by decide +kernel)

end AOB
