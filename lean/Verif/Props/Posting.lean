import Verif.Props.Matching
import Verif.Proofs.SelfTrade
/-
Properties of one successful `new_order`: what is posted, evictions, orders that do nothing, and
`AbortTransaction`.
-/
namespace AOB
variable {C : Type} [CallbackInfo C] {m m' : Market C} {p : NewOrderParams C} {s : OrderSummary}

theorem not_asGood {side : Side} {a b : Nat} : side.asGood a b = false ↔ side.worse a b := by
  cases side <;> simp [Side.asGood, Side.worse]

theorem ReachBy.reachable {c is} (h : ReachBy c is m) : Reachable m := ⟨c, is, h⟩

omit [CallbackInfo C] in
theorem config_cap (c : Config) (side : Side) : (c.ref : RefMarket C).cap side = c.cap side := by
  cases side <;> rfl

/-- The view of a market with known configuration. -/
theorem ReachBy.view {c is} (h : ReachBy c is m) (hp : (Instr.newOrder p).Ok) (he : m.newOrder p = .ok (s, m')) :
    ∃ a a' n r ex, View m m' p s a a' n r ex ∧ a.minBase = c.minBase ∧ a.tick = c.tick ∧
      (∀ side, a.cap side = c.cap side) ∧ a.capEvents = c.capEvents ∧ a.seq ≤ is.length := by
  obtain ⟨hk, hseq, hpar⟩ := h.known
  obtain ⟨a', n, r, ex, _, v⟩ := hk.view hp he
  exact ⟨_, a', n, r, ex, v, hpar.minBase, hpar.tick, fun side => by rw [hpar.cap, config_cap], hpar.capEvents, hseq⟩

namespace View
variable {a a' : RefMarket C} {n : Nat} {r : MatchOut C} {ex : List (Event C)}

theorem rounds (v : View m m' p s a a' n r ex) : AOB.rounds p (emitted m m') = n := by
  rw [v.ok.steps.rounds, v.em]
  unfold AOB.rounds
  rw [List.filter_append, List.length_append]
  have : ex.filter (fun e => e.isFill || (e.makerSide == p.side.opposite && p.selfTradeBehavior != .decrementTake &&
    decide (CallbackInfo.asCallbackId p.callbackInfo = CallbackInfo.asCallbackId e.makerCb))) = [] := by
    rw [List.filter_eq_nil_iff]
    intro e he
    obtain ⟨w, _, rfl⟩ := v.ex_own e he
    have : (p.side == p.side.opposite) = false := by cases p.side <;> rfl
    simp [Event.isFill, Event.makerSide, this]
  rw [this, List.length_nil, Nat.add_zero]

theorem remainder (v : View m m' p s a a' n r ex) :
    AOB.remainder p (emitted m m') = min (affordable r.quote p.limitPrice) r.base := by
  obtain ⟨h1, h2⟩ := v.ok.steps.sums
  unfold AOB.remainder affordable
  rw [v.fills]
  rw [show p.maxQuoteQty - sumQuote (AOB.fills r.events) = r.quote by omega,
    show p.maxBaseQty - sumBase (AOB.fills r.events) = r.base by omega]

theorem crossed (v : View m m' p s a a' n r ex) : r.crossed = false ↔
    n < p.matchLimit ∧ ∀ o ∈ r.opp, p.side.accepts p.limitPrice o.price = false := by
  have hst := v.ok.stop
  constructor
  · intro hc
    rw [hc] at hst
    refine ⟨?_, stop_not_accept hst (v.ok.steps.sorted (v.known.inv.sorted _))⟩
    rcases hst with ⟨_, h⟩ | ⟨h, _⟩
    · cases h
    · omega
  · rintro ⟨h1, h2⟩
    rcases hst with ⟨h, _⟩ | ⟨_, h⟩
    · omega
    · cases hopp : r.opp with
      | nil => rw [hopp] at h; exact h
      | cons o rest =>
        rw [hopp] at h
        rw [h.1]
        exact h2 o (by rw [hopp]; simp)

end View

/-- C15: the remainder is posted exactly when posting is allowed, matching stopped before the match limit with
no acceptable opposite order left, the remainder reaches the minimum size, and there is room or the worst order of
the side is strictly worse. -/
theorem C15_posting_rule {c is} (h : ReachBy c is m) (hp : (Instr.newOrder p).Ok)
    (he : m.newOrder p = .ok (s, m')) :
    (∃ id, s.postedOrderId = some id) ↔
      (p.postAllowed = true ∧ rounds p (emitted m m') < p.matchLimit ∧
        (∀ o ∈ resting m' p.side.opposite, ¬ p.side.accepts p.limitPrice o.price = true) ∧
        c.minBase ≤ remainder p (emitted m m') ∧
        ((resting m p.side).length < c.cap p.side ∨
          ∃ w, (resting m p.side).getLast? = some w ∧ p.side.worse w.price p.limitPrice)) := by
  obtain ⟨a, a', n, r, ex, v, hmin, _, hcap, _⟩ := h.view hp he
  rw [v.rounds, v.remainder, v.rest', v.opp', v.rest, ← hcap, ← hmin]
  have hcr := v.crossed
  have hacc : (∀ o ∈ r.opp, ¬ p.side.accepts p.limitPrice o.price = true) ↔
      (∀ o ∈ r.opp, p.side.accepts p.limitPrice o.price = false) := by
    simp only [Bool.not_eq_true]
  rw [hacc]
  rcases v.post with ⟨hc, _⟩ | ⟨hc, _⟩ | ⟨kept, ev, hc, _⟩
  · rw [hc.sum]
    constructor
    · rintro ⟨id, h⟩; cases h
    · rintro ⟨h1, h2, h3, h4, _⟩
      rcases hc.why with h5 | h5 | h5
      · rw [hcr.2 ⟨h2, h3⟩] at h5; cases h5
      · rw [h1] at h5; cases h5
      · exact absurd h4 (Nat.not_le.2 h5)
  · rw [hc.sum]
    constructor
    · rintro ⟨id, h⟩; cases h
    · rintro ⟨_, _, _, _, h5 | ⟨w, h5, h6⟩⟩
      · have := hc.full; omega
      · have := hc.good w h5
        rw [not_asGood.2 h6] at this
        cases this
  · rw [hc.sum]
    obtain ⟨g1, g2⟩ := hcr.1 hc.tried.crossed
    constructor
    · intro _
      refine ⟨hc.tried.allowed, g1, g2, hc.tried.min, ?_⟩
      rcases hc.evict with ⟨_, _, h⟩ | ⟨w, _, h1, _, h2, _⟩
      · exact Or.inl h
      · exact Or.inr ⟨w, by rw [h1]; simp, not_asGood.1 h2⟩
    · intro _
      exact ⟨_, rfl⟩

/-- C15: what is posted. The order rests with the reported id and quantity and the given callback info, behind
all the orders that are at least as good and before all the strictly worse ones; the reported quantity is the
remainder, and the id carries the limit price. -/
theorem C15_posted_order {c is} (h : ReachBy c is m) (hp : (Instr.newOrder p).Ok)
    (he : m.newOrder p = .ok (s, m')) {id : Nat} (hid : s.postedOrderId = some id) :
    s.totalBaseQtyPosted = remainder p (emitted m m') ∧ id / 2 ^ 64 = p.limitPrice ∧
    ∃ L R, resting m' p.side = L ++ ⟨id, s.totalBaseQtyPosted, p.callbackInfo⟩ :: R ∧
      (∀ o ∈ L, ¬ p.side.worse o.price p.limitPrice) ∧ (∀ o ∈ R, p.side.worse o.price p.limitPrice) := by
  obtain ⟨a, a', n, r, ex, v, _⟩ := h.view hp he
  rw [v.remainder, v.rest']
  rcases v.post with ⟨hc, _⟩ | ⟨hc, _⟩ | ⟨kept, ev, hc, _⟩
  · rw [hc.sum] at hid; cases hid
  · rw [hc.sum] at hid; cases hid
  · rw [hc.sum] at hid ⊢
    simp only [Option.some.injEq] at hid
    subst hid
    have hidp : mkOrderId p.side p.limitPrice a.seq / 2 ^ 64 = p.limitPrice :=
      mkOrderId_price (by have := hc.tried.seq; omega)
    refine ⟨rfl, hidp, ?_⟩
    have hkept : kept.Pairwise p.side.before := by
      have := v.known.inv.sorted p.side
      rcases hc.evict with ⟨_, h, _⟩ | ⟨w, _, h, _⟩
      · rw [h]; exact this
      · rw [h, List.pairwise_append] at this; exact this.1
    rw [hc.own]
    unfold insertOrder
    have hpr : (⟨mkOrderId p.side p.limitPrice a.seq, min (affordable r.quote p.limitPrice) r.base,
      p.callbackInfo⟩ : Order C).price = p.limitPrice := hidp
    rw [hpr]
    refine ⟨_, _, rfl, ?_, ?_⟩
    · intro o ho hw
      have := List.all_takeWhile (p := fun x : Order C => p.side.asGood x.price p.limitPrice) (l := kept)
      rw [List.all_eq_true] at this
      have := this o ho
      rw [not_asGood.2 hw] at this
      cases this
    · intro o ho
      rw [← not_asGood]
      generalize hd : kept.dropWhile (fun x => p.side.asGood x.price p.limitPrice) = R at ho
      cases R with
      | nil => cases ho
      | cons y R =>
        have hy : p.side.asGood y.price p.limitPrice = false := by
          have h0 : kept.dropWhile (fun x => p.side.asGood x.price p.limitPrice) ≠ [] := by rw [hd]; simp
          have := List.head_dropWhile_not (fun x : Order C => p.side.asGood x.price p.limitPrice) h0
          simpa [hd] using this
        rcases List.mem_cons.1 ho with rfl | ho
        · exact hy
        · have hsub : (y :: R).Sublist kept := by rw [← hd]; exact List.dropWhile_sublist _
          have hp := hkept.sublist hsub
          rw [List.pairwise_cons] at hp
          have hyo := before_price (hp.1 o ho)
          by_contra hne
          rw [Bool.not_eq_false] at hne
          have : p.side.asGood y.price p.limitPrice = true := by
            cases hs : p.side <;> rw [hs] at hyo hne <;>
              simp only [Side.asGood, decide_eq_true_iff] at * <;> omega
          rw [hy] at this
          cases this

/-- C15: an order that is not posted reports so and leaves its own side as it was. -/
theorem C15_not_posted (h : Reachable m) (hp : (Instr.newOrder p).Ok) (he : m.newOrder p = .ok (s, m'))
    (hid : s.postedOrderId = none) : s.totalBaseQtyPosted = 0 ∧ resting m' p.side = resting m p.side := by
  refine ⟨?_, by have := C48_own_side h hp he; rw [hid] at this; exact this⟩
  obtain ⟨a, a', n, r, ex, v⟩ := h.view hp he
  rcases v.post with ⟨hc, _⟩ | ⟨hc, _⟩ | ⟨kept, ev, hc, _⟩
  · rw [hc.sum]
  · rw [hc.sum]
  · rw [hc.sum] at hid; cases hid

/-- C17: an order posted on a full side evicts exactly the worst-ranked order of that side, whose price is strictly
worse than the new limit price; it is announced last. -/
theorem C17_eviction {c is} (h : ReachBy c is m) (hp : (Instr.newOrder p).Ok) (he : m.newOrder p = .ok (s, m'))
    (hfull : (resting m p.side).length = c.cap p.side) {id : Nat} (hid : s.postedOrderId = some id) :
    ∃ kept w es0, resting m p.side = kept ++ [w] ∧ p.side.worse w.price p.limitPrice ∧
      emitted m m' = es0 ++ [.out p.side w.id w.qty w.cb] ∧ (∀ e ∈ es0, e.makerSide = p.side.opposite) ∧
      ∃ L R, kept = L ++ R ∧ resting m' p.side = L ++ ⟨id, s.totalBaseQtyPosted, p.callbackInfo⟩ :: R := by
  obtain ⟨a, a', n, r, ex, v, _, _, hcap, _⟩ := h.view hp he
  rw [v.rest] at hfull
  rcases v.post with ⟨hc, _⟩ | ⟨hc, _⟩ | ⟨kept, ev, hc, hex⟩
  · rw [hc.sum] at hid; cases hid
  · rw [hc.sum] at hid; cases hid
  · rw [hc.sum] at hid ⊢
    simp only [Option.some.injEq] at hid
    subst hid
    rcases hc.evict with ⟨_, _, h1⟩ | ⟨w, h1, h2, _, h3, _⟩
    · rw [hcap] at h1; omega
    · refine ⟨kept, w, r.events, by rw [v.rest]; exact h2, not_asGood.1 h3, ?_, ?_, ?_⟩
      · rw [v.em, hex, h1]; rfl
      · intro e he
        obtain ⟨o, _, _, _, h⟩ := v.ok.steps.named e he
        exact h
      · rw [v.rest', hc.own]
        exact ⟨_, _, (List.takeWhile_append_dropWhile).symm, rfl⟩

/-- C17: no order is evicted from a side that is not full, nor by an order that is not posted. -/
theorem C17_no_eviction {c is} (h : ReachBy c is m) (hp : (Instr.newOrder p).Ok) (he : m.newOrder p = .ok (s, m'))
    (hnot : (resting m p.side).length < c.cap p.side ∨ s.postedOrderId = none) :
    (∀ e ∈ emitted m m', e.makerSide = p.side.opposite) ∧
    ∀ x ∈ resting m p.side, x ∈ resting m' p.side := by
  obtain ⟨a, a', n, r, ex, v, _, _, hcap, _⟩ := h.view hp he
  have hex : ex = [] := by
    rcases v.post with ⟨hc, h⟩ | ⟨hc, h⟩ | ⟨kept, ev, hc, hex⟩
    · exact h
    · exact h
    · rcases hnot with hnot | hnot
      · rcases hc.evict with ⟨h1, _⟩ | ⟨w, _, _, h1, _⟩
        · rw [hex, h1]; rfl
        · rw [v.rest, ← hcap] at hnot; omega
      · rw [hc.sum] at hnot; cases hnot
  have hn : ∀ e ∈ emitted m m', ∃ o ∈ a.orders p.side.opposite, e.id = o.id ∧ e.makerSide = p.side.opposite := by
    intro e he
    rw [v.em, hex, List.append_nil] at he
    obtain ⟨o, ho, h1, _, h2⟩ := v.ok.steps.named e he
    exact ⟨o, ho, h1, h2⟩
  refine ⟨fun e he => (hn e he).choose_spec.2.2, fun x hx => ?_⟩
  apply C48_unnamed_untouched h.reachable hp he p.side hx
  intro e he
  obtain ⟨o, ho, h1, _⟩ := hn e he
  rw [h1]
  rw [v.rest] at hx
  exact Ne.symm (v.known.inv.ids_ne hx ho)

/-- C17: a side that is full of orders at least as good refuses the new order: nothing is posted. -/
theorem C17_refused {c is} (h : ReachBy c is m) (hp : (Instr.newOrder p).Ok) (he : m.newOrder p = .ok (s, m'))
    (hfull : (resting m p.side).length = c.cap p.side)
    (hgood : ∀ o ∈ resting m p.side, ¬ p.side.worse o.price p.limitPrice) :
    s.postedOrderId = none ∧ resting m' p.side = resting m p.side := by
  have hnone : s.postedOrderId = none := by
    cases hs : s.postedOrderId with
    | none => rfl
    | some id =>
      obtain ⟨kept, w, _, h1, h2, _⟩ := C17_eviction h hp he hfull hs
      exact absurd h2 (hgood w (by rw [h1]; simp))
  exact ⟨hnone, (C15_not_posted h.reachable hp he hnone).2⟩

/-- C47: an order that crosses nothing or may not trade leaves the opposite side alone; if it is not posted
either, the book and the queue are as before. -/
theorem C47_no_trade_no_change (h : Reachable m) (hp : (Instr.newOrder p).Ok) (he : m.newOrder p = .ok (s, m'))
    (hno : p.postOnly = true ∨ p.matchLimit = 0 ∨ p.maxBaseQty = 0 ∨ p.maxQuoteQty = 0 ∨
      ∀ o ∈ resting m p.side.opposite, ¬ p.side.accepts p.limitPrice o.price = true) :
    resting m' p.side.opposite = resting m p.side.opposite ∧ fills (emitted m m') = [] ∧
    (s.postedOrderId = none →
      resting m' p.side = resting m p.side ∧ pending m' = pending m ∧ s.totalBaseQty = 0 ∧ s.totalQuoteQty = 0) := by
  obtain ⟨a, a', n, r, ex, v⟩ := h.view hp he
  have key : r.events = [] ∧ r.opp = a.orders p.side.opposite ∧ r.base = p.maxBaseQty ∧ r.quote = p.maxQuoteQty := by
    by_cases hml : p.matchLimit = 0
    · have := v.ok.limit
      have hn : n = 0 := by omega
      have hst := v.ok.steps
      rw [hn] at hst
      have h1 := hst.events_length
      have h2 := hst.sums
      have hes : r.events = [] := List.length_eq_zero_iff.1 (by omega)
      have h3 := hst.survive (v.known.inv.nodup _)
      rw [hes] at h3 h2
      have : survivor ([] : List (Event C)) = some := by
        funext x; simp [survivor]
      rw [this, List.filterMap_some] at h3
      simp only [fills_nil, sumBase_nil, sumQuote_nil, Nat.add_zero] at h2
      exact ⟨hes, h3, h2.1.symm, h2.2.symm⟩
    · refine (v.ok.steps.stuck ?_).2
      intro x rest hx ht
      rcases hno with hno | hno | hno | hno | hno
      · have := ht.noPostOnly; rw [hno] at this; cases this
      · exact hml hno
      · exact ht.qty (by rw [hno]; unfold tradeQty; omega)
      · apply ht.qty
        rw [hno]; unfold tradeQty affordable; simp
      · refine hno x ?_ ht.accepts
        rw [v.rest, hx]; simp
  obtain ⟨h1, h2, h3, h4⟩ := key
  refine ⟨by rw [v.rest', v.opp', v.rest, h2], by rw [v.fills, h1]; rfl, fun hnone => ?_⟩
  refine ⟨(C15_not_posted h hp he hnone).2, ?_⟩
  have noPost : ex = [] → s = ⟨none, p.maxBaseQty - r.base, p.maxQuoteQty - r.quote, 0⟩ →
      pending m' = pending m ∧ s.totalBaseQty = 0 ∧ s.totalQuoteQty = 0 := by
    intro hex hs
    rw [v.pend', v.pend, h1, hex, hs]
    simp [h3, h4]
  rcases v.post with ⟨hc, hex⟩ | ⟨hc, hex⟩ | ⟨kept, ev, hc, hex⟩
  · exact noPost hex hc.sum
  · exact noPost hex hc.sum
  · rw [hc.sum] at hnone; cases hnone

/-- C16, `AbortTransaction`: if the same order sent with `DecrementTake` succeeds, then with `AbortTransaction` it
fails with `WouldSelfTrade` when one of the fills would be a self trade, and does exactly the same otherwise. -/
theorem C16_abort (h : Reachable m) (hp : (Instr.newOrder p).Ok) (hb : p.selfTradeBehavior = .abortTransaction)
    (he : m.newOrder { p with selfTradeBehavior := .decrementTake } = .ok (s, m')) :
    ((∃ e ∈ emitted m m', e.isFill = true ∧
        CallbackInfo.asCallbackId p.callbackInfo = CallbackInfo.asCallbackId e.makerCb) →
      m.newOrder p = .error (.ao .wouldSelfTrade)) ∧
    ((∀ e ∈ emitted m m', e.isFill = true →
        CallbackInfo.asCallbackId p.callbackInfo ≠ CallbackInfo.asCallbackId e.makerCb) →
      ∃ m'', m.newOrder p = .ok (s, m'') ∧ SameLook m'' m') := by
  obtain ⟨a, ha⟩ := h.known
  obtain ⟨a', n, r, ex, hok, v⟩ := ha.view (p := p.decrement) hp he
  have hab := newOrder_abort_err hb hok v.ok
  have hr := newOrder_refines ha.rep ha.inv p hp
  constructor
  · rintro ⟨e, hem, hf, hid⟩
    have hany : r.events.any (selfFill p) = true := by
      rw [List.any_eq_true]
      exact ⟨e, v.mem_fill hem hf, by simp [selfFill, hf, hid]⟩
    rw [if_pos hany] at hab
    rw [hab] at hr
    exact hr
  · intro hno
    have hany : ¬ r.events.any (selfFill p) = true := by
      rw [List.any_eq_true]
      rintro ⟨e, hem, hs⟩
      simp only [selfFill, Bool.and_eq_true, decide_eq_true_iff] at hs
      exact hno e (by rw [v.em]; exact List.mem_append_left _ hem) hs.1 hs.2
    rw [if_neg hany] at hab
    rw [hab] at hr
    obtain ⟨m'', h1, h2⟩ := hr
    exact ⟨m'', h1, fun side => by rw [h2.resting, v.rest'], by rw [h2.pending, v.known'.rep.pending]⟩

/-- C16, `AbortTransaction`: an order that succeeds would have done exactly the same with `DecrementTake`. -/
theorem C16_abort_ok (h : Reachable m) (hp : (Instr.newOrder p).Ok) (hb : p.selfTradeBehavior = .abortTransaction)
    (he : m.newOrder p = .ok (s, m')) :
    ∃ m'', m.newOrder { p with selfTradeBehavior := .decrementTake } = .ok (s, m'') ∧ SameLook m' m'' := by
  obtain ⟨a, ha⟩ := h.known
  obtain ⟨a', n, r, ex, hok, v⟩ := ha.view hp he
  have hab := newOrder_abort_ok hb hok
  have hr := newOrder_refines ha.rep ha.inv p.decrement hp
  rw [hab] at hr
  obtain ⟨m'', h1, h2⟩ := hr
  exact ⟨m'', h1, fun side => by rw [h2.resting, v.rest'], by rw [h2.pending, v.known'.rep.pending]⟩

/-! ### A concrete case: the demo order of `Props/Matching.lean` and variants -/

example := C15_posting_rule demo_reachBy demoTake_ok demo_take
example := C15_posted_order demo_reachBy demoTake_ok demo_take rfl
example := C15_not_posted demo_reachable (p := demoNoPost) demoTake_ok demoNoPost_take rfl
example := C17_eviction demo_reachBy demoTake_ok demo_take (by decide +kernel) rfl
example := C17_no_eviction demo_reachBy (p := demoNoPost) demoTake_ok demoNoPost_take (.inr rfl)
example := C47_no_trade_no_change demo_reachable (p := demoPostOnly) demoTake_ok demoPostOnly_take (.inl rfl)

/-- A bid at the price of the worst resting bid: the full side refuses it. -/
def demoLow : NewOrderParams DemoCb := demoOrder .bid 5 8 9
theorem demoLow_take : demo.newOrder demoLow =
    .ok (⟨none, 0, 0, 0⟩, demo.step (.newOrder demoLow)) := by decide +kernel
example := C17_refused demo_reachBy (p := demoLow) (by decide +kernel) demoLow_take (by decide +kernel) (by
  have : ∀ o ∈ resting demo .bid, 8 * 2 ^ 32 ≤ o.price := by decide +kernel
  intro o ho hw
  exact absurd (this o ho) (Nat.not_le.2 hw))

/-- The demo order with the other self-trade behaviours: it would trade with the own ask. -/
def demoAbort : NewOrderParams DemoCb := { demoTake with selfTradeBehavior := .abortTransaction }
def demoDecr : NewOrderParams DemoCb := { demoTake with selfTradeBehavior := .decrementTake }
theorem demoDecr_take : demo.newOrder { demoAbort with selfTradeBehavior := .decrementTake } =
    .ok (⟨none, 14, 142, 0⟩, demo.step (.newOrder demoDecr)) := by decide +kernel
example : demo.newOrder demoAbort = .error (.ao .wouldSelfTrade) :=
  (C16_abort demo_reachable (p := demoAbort) demoTake_ok rfl demoDecr_take).1 (by decide +kernel)

/-- An aborting order that is satisfied before it meets the own ask. -/
def demoSmall : NewOrderParams DemoCb := { demoAbort with maxBaseQty := 4 }
theorem demoSmall_take : demo.newOrder demoSmall =
    .ok (⟨none, 4, 40, 0⟩, demo.step (.newOrder demoSmall)) := by decide +kernel
example := C16_abort_ok demo_reachable (p := demoSmall) (by decide +kernel) rfl demoSmall_take

end AOB
