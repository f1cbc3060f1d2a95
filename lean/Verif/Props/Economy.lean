import Verif.Spec.Economy
import Verif.Props.History
import Verif.Proofs.Economy
/-
The best order can be taken unless it is worth nothing (C69), no gain from taking alone (C70), looser limits and larger
sizes trade more (C71), orders behind do not matter (C72).
-/
namespace AOB
variable {C : Type} [CallbackInfo C] {m m' : Market C} {p : NewOrderParams C} {s : OrderSummary}

/-! ### C69 -/

/-- C69: the best order of a side can be taken as a whole by one `new_order`: with a match limit of 1, a limit price on the
tick grid that accepts it, caps that cover it, another user (or `DecrementTake`) and two free event slots. The only other
condition is that its value, rounded as for this taker, is not zero. -/
theorem C69_best_can_be_taken {c is} (h : ReachBy c is m) (hp : (Instr.newOrder p).Ok) {o : Order C}
    {rest : List (Order C)} (hbest : resting m p.side.opposite = o :: rest)
    (hpo : p.postOnly = false) (hpa : p.postAllowed = false) (hml : p.matchLimit = 1)
    (htick : c.tick ∣ p.limitPrice) (hlim : p.side.accepts p.limitPrice o.price = true)
    (hb : o.qty ≤ p.maxBaseQty) (hq : (o.qty * o.price + (2 ^ 32 - 1)) / 2 ^ 32 ≤ p.maxQuoteQty)
    (hself : p.selfTradeBehavior = .decrementTake ∨
      CallbackInfo.asCallbackId p.callbackInfo ≠ CallbackInfo.asCallbackId o.cb)
    (hroom : (pending m).length + 2 ≤ c.capEvents) (hworth : worth p.side o.qty o.price ≠ 0) :
    ∃ m', m.newOrder p = .ok (⟨none, o.qty, worth p.side o.qty o.price, 0⟩, m') ∧
      resting m' p.side.opposite = rest ∧ resting m' p.side = resting m p.side ∧
      emitted m m' = [.fill p.side o.id o.qty (worth p.side o.qty o.price) o.cb p.callbackInfo,
        .out p.side.opposite o.id 0 o.cb] := by
  obtain ⟨hk, _, hpar⟩ := h.known
  generalize (c.ref : RefMarket C).run is = a at hk hpar
  have hopp : a.orders p.side.opposite = o :: rest := by rw [← hk.rep.resting]; exact hbest
  have hok := hk.inv.ok p.side.opposite o (by rw [hopp]; simp)
  have hmin : 0 < a.minBase := hk.minBase
  have ht0 : a.tick ≠ 0 := by rw [hpar.tick]; exact Nat.pos_iff_ne_zero.1 h.1.tick
  have hev : (pending m) = a.events := hk.rep.pending
  have hcap : a.capEvents = c.capEvents := hpar.capEvents
  have haff : o.qty ≤ affordable p.maxQuoteQty o.price := by
    unfold affordable
    rw [Nat.le_div_iff_mul_le hok.price_pos]
    have := Nat.lt_mul_div_succ (o.qty * o.price + (2 ^ 32 - 1)) (show 0 < 2 ^ 32 by decide)
    have h2 := Nat.mul_le_mul_right (2 ^ 32) hq
    omega
  have ht : min (min o.qty p.maxBaseQty) (affordable p.maxQuoteQty o.price) = o.qty := by omega
  have hqty : o.qty ≠ 0 := by have := hok.min; omega
  have hns : ¬ (p.selfTradeBehavior ≠ .decrementTake ∧
      CallbackInfo.asCallbackId p.callbackInfo = CallbackInfo.asCallbackId o.cb) := by
    rintro ⟨h1, h2⟩
    rcases hself with h3 | h3
    · exact h1 h3
    · exact h3 h2
  have hm : refMatch p a.minBase p.matchLimit (a.capEvents - a.events.length) (a.orders p.side.opposite)
      p.maxBaseQty p.maxQuoteQty true =
      .ok ⟨[.fill p.side o.id o.qty (worth p.side o.qty o.price) o.cb p.callbackInfo,
        .out p.side.opposite o.id 0 o.cb], rest, p.maxBaseQty - o.qty,
        p.maxQuoteQty - worth p.side o.qty o.price, true⟩ := by
    rw [hml, hopp]
    simp only [refMatch]
    rw [if_neg (by simp [hpo, hlim]), ht, if_neg (by simp [hqty, hworth]), if_neg hns, Nat.sub_self, if_pos hmin,
      if_neg (by rw [← hev]; omega)]
    rfl
  have hwle : worth p.side o.qty o.price ≤ p.maxQuoteQty := by
    refine le_trans ?_ hq
    unfold worth
    cases p.side <;> simp only <;> omega
  have hn : a.newOrder p = .ok (⟨none, o.qty, worth p.side o.qty o.price, 0⟩,
      { a.setOrders p.side.opposite rest with
        events := a.events ++ [.fill p.side o.id o.qty (worth p.side o.qty o.price) o.cb p.callbackInfo,
          .out p.side.opposite o.id 0 o.cb] }) := by
    unfold RefMarket.newOrder
    rw [if_neg ht0, if_neg (by
      rw [hpar.tick]
      have h1 : p.limitPrice % (c.ref : RefMarket C).tick = 0 := Nat.dvd_iff_mod_eq_zero.1 htick
      simp [hpa, h1]), hm]
    simp only [Bool.true_or, if_true]
    rw [Nat.sub_sub_self hb, Nat.sub_sub_self hwle]
  have hr := newOrder_refines hk.rep hk.inv p hp
  rw [hn] at hr
  obtain ⟨m', e1, e2⟩ := hr
  refine ⟨m', e1, ?_, ?_, ?_⟩
  · rw [e2.resting]; cases p.side <;> rfl
  · rw [e2.resting, hk.rep.resting]; cases p.side <;> rfl
  · unfold emitted
    rw [e2.pending, hev]
    exact List.drop_left

/-- C69: a resting ask is never worth nothing to a buyer, so the best ask can always be bought. -/
theorem C69_asks_never_block {c is} (h : ReachBy c is m) {o : Order C} (ho : o ∈ resting m .ask) :
    worth .bid o.qty o.price ≠ 0 := by
  obtain ⟨hk, _, _⟩ := h.known
  rw [hk.rep.resting] at ho
  have hok := hk.inv.ok .ask o ho
  have h1 := hok.min
  have h2 := hk.minBase
  have h3 := Nat.mul_pos (show 0 < o.qty by omega) hok.price_pos
  unfold worth
  simp only
  omega

/-- C69: while the best bid is worth less than one quote unit, nobody can sell: an ask at its price or lower succeeds, but
trades nothing, posts nothing and changes nothing. -/
theorem C69_worthless_bid_blocks {c is} (h : ReachBy c is m) (hp : (Instr.newOrder p).Ok) {o : Order C}
    {rest : List (Order C)} (hside : p.side = .ask) (hbest : resting m .bid = o :: rest)
    (hworth : o.qty * o.price / 2 ^ 32 = 0) (htick : c.tick ∣ p.limitPrice)
    (hpost : p.postAllowed = true → c.tick ≤ p.limitPrice) (hlim : p.limitPrice ≤ o.price) :
    ∃ m', m.newOrder p = .ok (⟨none, 0, 0, 0⟩, m') ∧ SameLook m' m := by
  obtain ⟨hk, _, hpar⟩ := h.known
  generalize (c.ref : RefMarket C).run is = a at hk hpar
  have hopp : a.orders p.side.opposite = o :: rest := by rw [← hk.rep.resting, hside]; exact hbest
  have ht0 : a.tick ≠ 0 := by rw [hpar.tick]; exact Nat.pos_iff_ne_zero.1 h.1.tick
  have hacc : p.side.accepts p.limitPrice o.price = true := by rw [hside]; simp [Side.accepts, hlim]
  have hm : refMatch p a.minBase p.matchLimit (a.capEvents - a.events.length) (a.orders p.side.opposite)
      p.maxBaseQty p.maxQuoteQty true = .ok ⟨[], a.orders p.side.opposite, p.maxBaseQty, p.maxQuoteQty, true⟩ := by
    rw [hopp]
    cases p.matchLimit with
    | zero => rfl
    | succ n =>
      simp only [refMatch]
      split
      · rw [hacc]
      · rw [if_pos]
        right
        have hle : min (min o.qty p.maxBaseQty) (affordable p.maxQuoteQty o.price) * o.price ≤ o.qty * o.price :=
          Nat.mul_le_mul_right _ (by omega)
        have := Nat.div_le_div_right (c := 2 ^ 32) hle
        rw [hside]
        show _ * _ / 2 ^ 32 = 0
        omega
  have hn : a.newOrder p = .ok (⟨none, 0, 0, 0⟩, { a.setOrders p.side.opposite (a.orders p.side.opposite) with
      events := a.events ++ [] }) := by
    unfold RefMarket.newOrder
    rw [if_neg ht0, if_neg, hm]
    · simp only [Bool.true_or, if_true, Nat.sub_self]
    · rw [hpar.tick]
      rintro (h1 | ⟨h1, h2⟩)
      · exact h1 (Nat.dvd_iff_mod_eq_zero.1 htick)
      · have := hpost h1
        have e : (c.ref : RefMarket C).tick = c.tick := rfl
        omega
  have hr := newOrder_refines hk.rep hk.inv p hp
  rw [hn] at hr
  obtain ⟨m', e1, e2⟩ := hr
  refine ⟨m', e1, ?_, ?_⟩
  · intro side
    rw [e2.resting, hk.rep.resting, hside]; cases side <;> rfl
  · rw [e2.pending, hk.rep.pending]
    simp

/-- C69: if the smallest order at the smallest price is worth at least one quote unit (`min_base_order_size * tick_size` of
at least `2^32`), no resting order is worthless, so the best order of either side can always be taken. -/
theorem C69_never_blocked {c is} (h : ReachBy c is m) (hc : 2 ^ 32 ≤ c.minBase * c.tick) (side : Side) {o : Order C}
    (ho : o ∈ resting m side) (taker : Side) : worth taker o.qty o.price ≠ 0 := by
  obtain ⟨hk, _, hpar⟩ := h.known
  generalize (c.ref : RefMarket C).run is = a at hk hpar
  rw [hk.rep.resting] at ho
  have hok := hk.inv.ok side o ho
  have h1 : c.minBase ≤ o.qty := by have := hok.min; rw [hpar.minBase] at this; exact this
  have h2 : c.tick ≤ o.price := by
    have := Nat.le_of_dvd hok.price_pos hok.tick
    rw [hpar.tick] at this; exact this
  have h3 := Nat.mul_le_mul h1 h2
  unfold worth
  cases taker <;> simp only <;> omega

/-! ### C70 -/

omit [CallbackInfo C] in
theorem taken_append (side : Side) (a b : List (Event C)) :
    takenBase side (a ++ b) = takenBase side a + takenBase side b ∧
    takenQuote side (a ++ b) = takenQuote side a + takenQuote side b := by
  simp [takenBase, takenQuote, sumBase, sumQuote]

omit [CallbackInfo C] in
theorem taken_fill (side sd : Side) (id b q : Nat) (mc tc : C) :
    takenBase side [.fill sd id b q mc tc] = (if sd = side then b else 0) ∧
    takenQuote side [.fill sd id b q mc tc] = (if sd = side then q else 0) := by
  cases side <;> cases sd <;> simp [takenBase, takenQuote, Event.takenBy, sumBase, sumQuote, Event.base, Event.quote]

theorem worth_bid_ge (t x : Nat) : t * x ≤ 2 ^ 32 * worth .bid t x := by
  unfold worth
  simp only
  generalize t * x = y
  omega

theorem worth_ask_le (t x : Nat) : 2 ^ 32 * worth .ask t x ≤ t * x := by
  unfold worth
  simp only
  generalize t * x = y
  omega

/-- One taking at a price between the sides. -/
theorem take_no_gain {c is} (h : ReachBy c is m) (hp : (Instr.newOrder p).Ok) (he : m.newOrder p = .ok (s, m')) {x : Nat}
    (hx : Between m x) :
    2 ^ 32 * takenQuote .ask (emitted m m') + x * takenBase .bid (emitted m m') ≤
      2 ^ 32 * takenQuote .bid (emitted m m') + x * takenBase .ask (emitted m m') := by
  obtain ⟨a, a', n, r, ex, v⟩ := h.reachable.view hp he
  have hf : ∀ e ∈ emitted m m', e.isFill = true → ∃ o ∈ resting m p.side.opposite, ∃ t,
      e = .fill p.side o.id t (worth p.side t o.price) o.cb p.callbackInfo := by
    intro e hm hf
    obtain ⟨o, ho, t, e1, _⟩ := v.ok.steps.fill e (v.mem_fill hm hf) hf
    exact ⟨o, by rw [v.rest]; exact ho, t, e1⟩
  generalize emitted m m' = es at hf
  induction es with
  | nil => simp [takenBase, takenQuote]
  | cons e es ih =>
    have ih := ih (fun e hm => hf e (List.mem_cons_of_mem _ hm))
    rw [show e :: es = [e] ++ es from rfl]
    simp only [(taken_append _ _ _).1, (taken_append _ _ _).2, Nat.mul_add]
    suffices hs : 2 ^ 32 * takenQuote .ask [e] + x * takenBase .bid [e] ≤
        2 ^ 32 * takenQuote .bid [e] + x * takenBase .ask [e] by omega
    cases hfe : e.isFill with
    | false =>
      cases e with
      | fill => cases hfe
      | out => simp [takenBase, takenQuote, Event.takenBy]
    | true =>
      obtain ⟨o, ho, t, rfl⟩ := hf e (by simp) hfe
      have h3 := Nat.mul_comm x t
      cases hs : p.side with
      | bid =>
        rw [hs] at ho
        have h1 := Nat.mul_le_mul_left t (hx.2 o ho)
        have h2 := worth_bid_ge t o.price
        generalize worth .bid t o.price = w at *
        simp only [taken_fill, reduceCtorEq, if_true, if_false]
        omega
      | ask =>
        rw [hs] at ho
        have h1 := Nat.mul_le_mul_left t (hx.1 o ho)
        have h2 := worth_ask_le t o.price
        generalize worth .ask t o.price = w at *
        simp only [taken_fill, reduceCtorEq, if_true, if_false]
        omega

/-- A transaction that posts nothing leaves no order at a new price. -/
theorem takesOnly_prices {c is} (h : ReachBy c is m) (hlen : is.length < 2 ^ 63) {i : Instr C} (hi : i.Ok)
    (ht : i.TakesOnly) (side : Side) {y : Order C} (hy : y ∈ resting (m.step i) side) :
    ∃ x ∈ resting m side, x.price = y.price := by
  cases i with
  | newOrder p =>
    cases he : m.newOrder p with
    | error e =>
      have h1 : m.step (.newOrder p) = m := by simp only [Market.step, Market.exec, he]; rfl
      rw [h1] at hy; exact ⟨y, hy, rfl⟩
    | ok x =>
      obtain ⟨s, m'⟩ := x
      have h1 : m.step (.newOrder p) = m' := by simp only [Market.step, Market.exec, he, ok_bind]
      rw [h1] at hy
      rcases C48_nothing_appears h.reachable hi he side hy with ⟨x, hx, e, _⟩ | ⟨_, e, _⟩
      · exact ⟨x, hx, by unfold Order.price; rw [e]⟩
      · rw [(C14_no_post h.reachable hi he ht).1] at e; cases e
  | cancelOrder id =>
    cases he : m.cancelOrder id with
    | error e =>
      have h1 : m.step (.cancelOrder id) = m := by simp only [Market.step, Market.exec, he]; rfl
      rw [h1] at hy; exact ⟨y, hy, rfl⟩
    | ok x =>
      have hex : ∃ o ∈ allResting m, o.id = id := by
        by_contra hno
        have hno' : ∀ side, ∀ o ∈ resting m side, o.id ≠ id :=
          fun side o ho hid => hno ⟨o, mem_allResting.2 ⟨side, ho⟩, hid⟩
        rcases C22_cancel_missing h.reachable hno' with h' | ⟨h', _⟩ <;> rw [h'] at he <;> cases he
      obtain ⟨o, ho, rfl⟩ := hex
      obtain ⟨_, h1, _⟩ := h.cancel_step (by omega) (mem_allResting.1 ho)
      rw [h1 side] at hy
      exact ⟨y, List.mem_of_mem_filter hy, rfl⟩
  | massCancelOrders ids =>
    cases he : m.massCancelOrders ids with
    | error e =>
      have h1 : m.step (.massCancelOrders ids) = m := by simp only [Market.step, Market.exec, he]; rfl
      rw [h1] at hy; exact ⟨y, hy, rfl⟩
    | ok x =>
      obtain ⟨s, m1⟩ := x
      obtain ⟨os, hos⟩ := C24_only_if h (by omega) he
      obtain ⟨m', e1, e2, _⟩ := C24_mass_cancel h (by omega) hos
      have hmm : m1 = m' := by
        rw [he] at e1
        exact (Prod.mk.inj (Except.ok.inj e1)).2
      have h1 : m.step (.massCancelOrders ids) = m1 := by simp only [Market.step, Market.exec, he, ok_bind]
      rw [h1, hmm, e2 side] at hy
      exact ⟨y, List.mem_of_mem_filter hy, rfl⟩
  | consumeEvents n =>
    obtain ⟨m', e1, _, e3, _⟩ := C26_consume h.reachable n
    have h1 : m.step (.consumeEvents n) = m' := by simp only [Market.step, Market.exec, e1, ok_bind]
    rw [h1, e3] at hy
    exact ⟨y, hy, rfl⟩

/-- C70: take any price `x` between the bids and the asks of a market. However often and in whatever order it is traded
against without posting (with cancellations and consumptions in between), the quote received for selling plus the base
bought, valued at `x`, never exceeds the quote paid for buying plus the base sold, valued at `x`. -/
theorem C70_no_gain_at {c is} (h : ReachBy c is m) {js : List (Instr C)} (hlen : is.length + js.length ≤ 2 ^ 63)
    (hok : ∀ i ∈ js, i.Ok) (ht : ∀ i ∈ js, i.TakesOnly) {x : Nat} (hx : Between m x) :
    2 ^ 32 * takenQuote .ask (runLog m js).events + x * takenBase .bid (runLog m js).events ≤
      2 ^ 32 * takenQuote .bid (runLog m js).events + x * takenBase .ask (runLog m js).events := by
  induction js generalizing m is with
  | nil => simp [runLog, takenBase, takenQuote]
  | cons i js ih =>
    simp only [List.length_cons] at hlen
    have hi := hok i (by simp)
    have hti := ht i (by simp)
    have hx' : Between (m.step i) x := by
      constructor
      · intro b hb
        obtain ⟨o, ho, e⟩ := takesOnly_prices h (by omega) hi hti .bid hb
        rw [← e]; exact hx.1 o ho
      · intro b hb
        obtain ⟨o, ho, e⟩ := takesOnly_prices h (by omega) hi hti .ask hb
        rw [← e]; exact hx.2 o ho
    have ih := ih (h.step hi) (by simp; omega) (fun j hj => hok j (List.mem_cons_of_mem _ hj))
      (fun j hj => ht j (List.mem_cons_of_mem _ hj)) hx'
    have h1 : 2 ^ 32 * takenQuote .ask (stepLog m i).events + x * takenBase .bid (stepLog m i).events ≤
        2 ^ 32 * takenQuote .bid (stepLog m i).events + x * takenBase .ask (stepLog m i).events := by
      cases i with
      | newOrder p =>
        cases he : m.newOrder p with
        | error e => simp [stepLog, he, takenBase, takenQuote]
        | ok y =>
          obtain ⟨s, m'⟩ := y
          simp only [stepLog, he]
          exact take_no_gain h hi he hx
      | cancelOrder id => simp only [stepLog]; split <;> simp [takenBase, takenQuote]
      | massCancelOrders ids => simp only [stepLog]; split <;> simp [takenBase, takenQuote]
      | consumeEvents n => simp only [stepLog]; split <;> simp [takenBase, takenQuote]
    simp only [runLog, Log.append, (taken_append _ _ _).1, (taken_append _ _ _).2, Nat.mul_add]
    omega

/-- C70: there is always such a price. -/
theorem between_exists {c is} (h : ReachBy c is m) : ∃ x, Between m x := by
  cases hb : resting m .bid with
  | nil => exact ⟨0, by simp [hb], fun _ _ => Nat.zero_le _⟩
  | cons o rest =>
    refine ⟨o.price, ?_, ?_⟩
    · intro b hbm
      obtain ⟨hk, _⟩ := h.known
      have hs := hk.inv.sorted .bid
      rw [← hk.rep.resting, hb] at hs
      rw [hb] at hbm
      rcases List.mem_cons.1 hbm with rfl | hbm
      · exact le_rfl
      · have := (List.pairwise_cons.1 hs).1 b hbm
        unfold Side.before at this
        unfold Order.price
        exact Nat.div_le_div_right (by omega)
    · intro a ha
      exact (C01_never_crossed h.reachable o (by rw [hb]; simp) a ha).le

/-- C70: nobody gains from trading against the book without posting: who buys at least as much base as they sell pays at
least as much quote as they receive. -/
theorem C70_no_gain {c is} (h : ReachBy c is m) {js : List (Instr C)} (hlen : is.length + js.length ≤ 2 ^ 63)
    (hok : ∀ i ∈ js, i.Ok) (ht : ∀ i ∈ js, i.TakesOnly)
    (hb : takenBase .ask (runLog m js).events ≤ takenBase .bid (runLog m js).events) :
    takenQuote .ask (runLog m js).events ≤ takenQuote .bid (runLog m js).events := by
  obtain ⟨x, hx⟩ := between_exists h
  have h1 := C70_no_gain_at h hlen hok ht hx
  have h2 := Nat.mul_le_mul_left x hb
  omega

/-! ### C71 -/

/-- C71: raising the limit price of a bid, or lowering that of an ask, only adds trades after those it made anyway. -/
theorem C71_looser_limit (h : Reachable m) (hp : (Instr.newOrder p).Ok) {l : Nat} (hl : p.side.accepts l p.limitPrice = true)
    (hp2 : (Instr.newOrder { p with limitPrice := l }).Ok) {s1 s2 : OrderSummary} {m1 m2 : Market C}
    (e1 : m.newOrder p = .ok (s1, m1)) (e2 : m.newOrder { p with limitPrice := l } = .ok (s2, m2)) :
    fills (emitted m m1) <+: fills (emitted m m2) := by
  obtain ⟨a, k⟩ := h.known
  obtain ⟨a1, n1, r1, x1, _, v1⟩ := k.view hp e1
  obtain ⟨a2, n2, r2, x2, _, v2⟩ := k.view hp2 e2
  rw [v1.fills, v2.fills]
  refine List.IsPrefix.filter _ (refMatch_looser (p := p) (l := l) ?_ _ _ _ _ _ _ _ _ v1.ok.run v2.ok.run)
  intro x hx
  unfold Side.accepts at *
  cases hs : p.side <;> simp only [hs, decide_eq_true_eq] at * <;> omega

/-- C71: a larger base cap never makes an order trade less. -/
theorem C71_more_base (h : Reachable m) (hp : (Instr.newOrder p).Ok) {b : Nat} (hb : p.maxBaseQty ≤ b)
    (hp2 : (Instr.newOrder { p with maxBaseQty := b }).Ok) {s1 s2 : OrderSummary} {m1 m2 : Market C}
    (e1 : m.newOrder p = .ok (s1, m1)) (e2 : m.newOrder { p with maxBaseQty := b } = .ok (s2, m2)) :
    sumBase (fills (emitted m m1)) ≤ sumBase (fills (emitted m m2)) ∧
    sumQuote (fills (emitted m m1)) ≤ sumQuote (fills (emitted m m2)) := by
  obtain ⟨a, k⟩ := h.known
  obtain ⟨a1, n1, r1, x1, _, v1⟩ := k.view hp e1
  obtain ⟨a2, n2, r2, x2, _, v2⟩ := k.view hp2 e2
  rw [v1.fills, v2.fills]
  have g := v2.ok.run
  rw [refMatch_params (p := p) (p' := { p with maxBaseQty := b }) rfl rfl rfl rfl rfl] at g
  exact refMatch_more _ _ _ _ _ _ _ _ _ _ hb le_rfl (.inl rfl) v1.ok.run g

/-- C71: a larger quote cap never makes a buyer trade less. -/
theorem C71_more_quote (h : Reachable m) (hp : (Instr.newOrder p).Ok) (hside : p.side = .bid) {q : Nat}
    (hq : p.maxQuoteQty ≤ q) (hp2 : (Instr.newOrder { p with maxQuoteQty := q }).Ok) {s1 s2 : OrderSummary} {m1 m2 : Market C}
    (e1 : m.newOrder p = .ok (s1, m1)) (e2 : m.newOrder { p with maxQuoteQty := q } = .ok (s2, m2)) :
    sumBase (fills (emitted m m1)) ≤ sumBase (fills (emitted m m2)) ∧
    sumQuote (fills (emitted m m1)) ≤ sumQuote (fills (emitted m m2)) := by
  obtain ⟨a, k⟩ := h.known
  obtain ⟨a1, n1, r1, x1, _, v1⟩ := k.view hp e1
  obtain ⟨a2, n2, r2, x2, _, v2⟩ := k.view hp2 e2
  rw [v1.fills, v2.fills]
  have g := v2.ok.run
  rw [refMatch_params (p := p) (p' := { p with maxQuoteQty := q }) rfl rfl rfl rfl rfl] at g
  refine refMatch_more _ _ _ _ _ _ _ _ _ _ le_rfl hq (.inr ⟨hside, ?_⟩) v1.ok.run g
  have hs := k.inv.sorted p.side.opposite
  have ho : p.side.opposite = .ask := by rw [hside]; rfl
  rw [ho] at hs ⊢
  refine hs.imp ?_
  intro x y hxy
  unfold Side.before at hxy
  exact Nat.div_le_div_right (by omega)

/-! ### C72 -/

/-- C72: what happens to the orders in front does not depend on the orders behind them. Let the opposite sides of two markets
begin with the same orders `A` and continue with different ones: the same order produces, on both, the same events about
the orders of `A`, in the same order. -/
theorem C72_orders_behind {c1 c2 is1 is2} {m1 m2 : Market C} (h1 : ReachBy c1 is1 m1) (h2 : ReachBy c2 is2 m2)
    (hc : c1.minBase = c2.minBase) (hp : (Instr.newOrder p).Ok) {A B1 B2 : List (Order C)}
    (hr1 : resting m1 p.side.opposite = A ++ B1) (hr2 : resting m2 p.side.opposite = A ++ B2) {s1 s2 : OrderSummary}
    {m1' m2' : Market C} (e1 : m1.newOrder p = .ok (s1, m1')) (e2 : m2.newOrder p = .ok (s2, m2')) :
    about (A.map Order.id) (emitted m1 m1') = about (A.map Order.id) (emitted m2 m2') := by
  have side : ∀ {c : Config} {is : List (Instr C)} {m m' : Market C} {s : OrderSummary} {B : List (Order C)},
      ReachBy c is m → resting m p.side.opposite = A ++ B → m.newOrder p = .ok (s, m') →
      (∀ o ∈ B, o.id ∉ A.map Order.id) ∧ ∃ room r, refMatch p c.minBase p.matchLimit room (A ++ B) p.maxBaseQty
        p.maxQuoteQty true = .ok r ∧ about (A.map Order.id) (emitted m m') = about (A.map Order.id) r.events := by
    intro c is m m' s B h hr e
    obtain ⟨k, _, hpar⟩ := h.known
    generalize (c.ref : RefMarket C).run is = a at k hpar
    have hnd := h.all_nodup
    have hopp : ((A ++ B).map Order.id).Nodup := by
      rw [← hr]
      unfold allResting at hnd
      rw [List.map_append, List.nodup_append] at hnd
      cases p.side
      · exact hnd.2.1
      · exact hnd.1
    obtain ⟨a1, n1, r1, x1, _, v1⟩ := k.view hp e
    refine ⟨?_, a.capEvents - a.events.length, r1, ?_, ?_⟩
    · intro o ho hA
      rw [List.map_append, List.nodup_append] at hopp
      exact hopp.2.2 _ hA _ (List.mem_map_of_mem ho) rfl
    · have := v1.ok.run
      rw [hpar.minBase, ← v1.rest, hr] at this
      exact this
    · rw [v1.em]
      unfold about
      rw [List.filter_append, List.filter_eq_nil_iff (l := x1) |>.2, List.append_nil]
      intro ev hev
      obtain ⟨w, hw, rfl⟩ := v1.ex_own ev hev
      intro hA
      obtain ⟨x, hx, hid⟩ := List.mem_map.1 (of_decide_eq_true hA)
      exact k.inv.ids_ne (side := p.side) hw (by rw [← v1.rest, hr]; exact List.mem_append_left _ hx) hid.symm
  obtain ⟨g1, room1, r1, f1, q1⟩ := side h1 hr1 e1
  obtain ⟨g2, room2, r2, f2, q2⟩ := side h2 hr2 e2
  rw [q1, q2]
  rw [hc] at f1
  exact refMatch_behind g1 g2 _ _ _ _ _ _ _ _ _ _ f1 f2

/-! ### Concrete cases -/

/-- An order that may not be posted. -/
def demoOnly (side : Side) (qty price user : Nat) : NewOrderParams DemoCb :=
  { demoOrder side qty price user with postAllowed := false }

/-- User 9 takes the ask of user 1, five at price 10, as a whole. -/
example := C69_best_can_be_taken demo_reachBy (p := { demoOnly .bid 5 10 9 with matchLimit := 1 })
  (o := ⟨10 * 2 ^ 96, 5, ⟨1, 7⟩⟩)
  (rest := [⟨10 * 2 ^ 96 + 2, 7, ⟨3, 7⟩⟩, ⟨11 * 2 ^ 96 + 1, 6, ⟨2, 7⟩⟩])
  (by decide) (by decide +kernel) rfl rfl rfl (by decide) (by decide) (by decide) (by decide) (.inr (by decide))
  (by decide +kernel) (by decide)

example := C69_asks_never_block demo_reachBy (o := ⟨10 * 2 ^ 96, 5, ⟨1, 7⟩⟩) (by decide +kernel)
example := C69_never_blocked demo_reachBy (by decide) .bid (o := ⟨8 * 2 ^ 96 + (2 ^ 64 - 1 - 4), 3, ⟨5, 7⟩⟩)
  (by decide +kernel) .ask

/-- A market whose smallest order is worth a quarter of a quote unit. -/
def blockCfg : Config := { minBase := 1, tick := 2 ^ 30, capBids := 3, capAsks := 4, capEvents := 12 }

/-- An order at a price in quarters of a quote unit. -/
def blockOrder (side : Side) (qty price user : Nat) : NewOrderParams DemoCb :=
  { demoOrder side qty 0 user with limitPrice := price * 2 ^ 30 }

/-- User 1 wants to buy 10 at a half; user 2 bids for 1 at three quarters. -/
def blockHist : List (Instr DemoCb) := [.newOrder (blockOrder .bid 10 2 1), .newOrder (blockOrder .bid 1 3 2)]

def blocked : Market DemoCb := (blockCfg.market ⟨0, 0⟩).run blockHist

theorem blocked_reachBy : ReachBy blockCfg blockHist blocked :=
  ⟨by constructor <;> decide +kernel, by decide +kernel, ⟨0, 0⟩, rfl⟩

/-- Nobody can sell to user 1 any more, at whatever price. -/
example := C69_worthless_bid_blocks blocked_reachBy (p := blockOrder .ask 10 1 3) (o := ⟨3 * 2 ^ 94 + (2 ^ 64 - 1 - 1), 1, ⟨2, 7⟩⟩)
  (rest := [⟨2 * 2 ^ 94 + (2 ^ 64 - 1), 10, ⟨1, 7⟩⟩]) (by decide) rfl (by decide +kernel) (by decide) (by decide)
  (by decide) (by decide)

/-- C69: the bid of user 2 cannot even be removed by an order of theirs that would trade with it, though it asks for own
orders to be cancelled; without that bid the same order sells all ten to user 1. -/
theorem C69_blocked_witness :
    ((blocked.newOrder (blockOrder .ask 10 1 2)).map fun x => (x.1, allResting x.2)) = .ok (⟨none, 0, 0, 0⟩, allResting blocked) ∧
    (((blockCfg.market ⟨0, 0⟩).run (blockHist.take 1)).newOrder (blockOrder .ask 10 1 2)).map (fun x => x.1) =
      .ok ⟨none, 10, 5, 0⟩ := by decide +kernel

/-- Two takings on each side of the demo market. -/
def demoTakings : List (Instr DemoCb) :=
  [.newOrder (demoOnly .bid 5 11 9), .newOrder (demoOnly .ask 6 8 9), .consumeEvents 2, .newOrder (demoOnly .bid 8 11 9),
   .cancelOrder (8 * 2 ^ 96 + (2 ^ 64 - 1 - 4)), .newOrder (demoOnly .ask 4 9 9)]

instance (i : Instr DemoCb) : Decidable i.TakesOnly := by
  cases i <;> unfold Instr.TakesOnly <;> infer_instance

instance (m : Market DemoCb) (x : Nat) : Decidable (Between m x) := by
  unfold Between; infer_instance

example := C70_no_gain_at demo_reachBy (js := demoTakings) (by decide) (by decide) (by decide) (x := 19 * 2 ^ 31)
  (by decide +kernel)
example := C70_no_gain demo_reachBy (js := demoTakings) (by decide) (by decide) (by decide) (by decide +kernel)
example : takenBase .bid (runLog demo demoTakings).events = 13 ∧ takenQuote .bid (runLog demo demoTakings).events = 131 ∧
    takenBase .ask (runLog demo demoTakings).events = 10 ∧ takenQuote .ask (runLog demo demoTakings).events = 90 := by
  decide +kernel

theorem demo_limit10 : ∃ s, demo.newOrder (demoOrder .bid 14 10 9) = .ok (s, demo.step (.newOrder (demoOrder .bid 14 10 9))) :=
  ⟨⟨some (10 * 2 ^ 96 + (2 ^ 64 - 1 - 6)), 14, 140, 2⟩, by decide +kernel⟩

theorem demo_limit11 : ∃ s, demo.newOrder { demoOrder .bid 14 10 9 with limitPrice := 11 * 2 ^ 32 } =
    .ok (s, demo.step (.newOrder { demoOrder .bid 14 10 9 with limitPrice := 11 * 2 ^ 32 })) :=
  ⟨⟨none, 14, 142, 0⟩, by decide +kernel⟩

example := C71_looser_limit demo_reachBy.reachable (p := demoOrder .bid 14 10 9) (l := 11 * 2 ^ 32) (by decide) (by decide)
  (by decide) demo_limit10.choose_spec demo_limit11.choose_spec

theorem demo_buy6 : demo.newOrder (demoOnly .bid 6 11 9) = .ok (⟨none, 6, 60, 0⟩, demo.step (.newOrder (demoOnly .bid 6 11 9))) := by
  decide +kernel
theorem demo_buy14 : demo.newOrder { demoOnly .bid 6 11 9 with maxBaseQty := 14 } =
    .ok (⟨none, 14, 142, 0⟩, demo.step (.newOrder { demoOnly .bid 6 11 9 with maxBaseQty := 14 })) := by
  decide +kernel
example := C71_more_base demo_reachBy.reachable (p := demoOnly .bid 6 11 9) (b := 14) (by decide) (by decide) (by decide)
  demo_buy6 demo_buy14

def demoPoor : NewOrderParams DemoCb := { demoOnly .bid 14 11 9 with maxQuoteQty := 55 }
theorem demo_poor : demo.newOrder demoPoor = .ok (⟨none, 5, 50, 0⟩, demo.step (.newOrder demoPoor)) := by
  decide +kernel
theorem demo_rich : demo.newOrder { demoPoor with maxQuoteQty := 135 } =
    .ok (⟨none, 13, 131, 0⟩, demo.step (.newOrder { demoPoor with maxQuoteQty := 135 })) := by
  decide +kernel
example := C71_more_quote demo_reachBy.reachable (p := demoPoor) (q := 135) (by decide) rfl (by decide) (by decide)
  demo_poor demo_rich

/-- C71: for a seller a larger quote cap can mean selling less base: with a cap of 1000 they sell 10 at price 100; with 999
only 9 of these fit, the bid is given up as dust, and the remaining 99 go to the next bid, at price 1. -/
theorem C71_seller_quote_witness :
    let m := (({ minBase := 5, tick := 2 ^ 32, capBids := 3, capAsks := 3, capEvents := 12 } : Config).market ⟨0, 0⟩).run
      [.newOrder (demoOrder .bid 10 100 1), .newOrder (demoOrder .bid 200 1 2)]
    (m.newOrder { demoOnly .ask 500 1 9 with maxQuoteQty := 1000 }).map (fun x => x.1) = .ok ⟨none, 10, 1000, 0⟩ ∧
    (m.newOrder { demoOnly .ask 500 1 9 with maxQuoteQty := 999 }).map (fun x => x.1) = .ok ⟨none, 108, 999, 0⟩ := by
  decide +kernel

/-- The demo market without its second ask, that of user 3. -/
def demoLess : Market DemoCb := demo.step (.cancelOrder (10 * 2 ^ 96 + 2))
theorem demoLess_reachBy : ReachBy demoCfg (demoHist ++ [.cancelOrder (10 * 2 ^ 96 + 2)]) demoLess :=
  demo_reachBy.step (by decide)
theorem demo_buy8 : demo.newOrder (demoOnly .bid 8 11 9) = .ok (⟨none, 8, 80, 0⟩, demo.step (.newOrder (demoOnly .bid 8 11 9))) := by
  decide +kernel
theorem demoLess_buy8 : demoLess.newOrder (demoOnly .bid 8 11 9) =
    .ok (⟨none, 8, 83, 0⟩, demoLess.step (.newOrder (demoOnly .bid 8 11 9))) := by
  decide +kernel

example := C72_orders_behind demo_reachBy demoLess_reachBy rfl (p := demoOnly .bid 8 11 9) (by decide)
  (A := [⟨10 * 2 ^ 96, 5, ⟨1, 7⟩⟩]) (B1 := [⟨10 * 2 ^ 96 + 2, 7, ⟨3, 7⟩⟩, ⟨11 * 2 ^ 96 + 1, 6, ⟨2, 7⟩⟩])
  (B2 := [⟨11 * 2 ^ 96 + 1, 6, ⟨2, 7⟩⟩]) (by decide +kernel) (by decide +kernel) demo_buy8 demoLess_buy8

end AOB
