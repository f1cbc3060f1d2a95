import Verif.Proofs.View
import Verif.Spec.Relate
/-
Comparing two executions of the reference engine.
-/
namespace AOB
variable {C : Type} [CallbackInfo C]

theorem map_ne_error {α β ε : Type} {f : α → β} {x : Except ε α} {e : ε} (h : x.map f ≠ .error e) :
    x ≠ .error e := by
  rintro rfl
  exact h rfl

/-! ### The room in the event queue -/

/-- Matching does not depend on the room in the queue, as long as there is enough. -/
theorem refMatch_room {p : NewOrderParams C} {mb : Nat} : ∀ (n r1 r2 : Nat) (opp : List (Order C)) (b q : Nat) (cr : Bool),
    refMatch p mb n r1 opp b q cr ≠ .error .eventQueueFull → refMatch p mb n r2 opp b q cr ≠ .error .eventQueueFull →
    refMatch p mb n r1 opp b q cr = refMatch p mb n r2 opp b q cr
  | 0, _, _, _, _, _, _, _, _ => rfl
  | _ + 1, _, _, [], _, _, _, _, _ => rfl
  | n + 1, r1, r2, o :: rest, b, q, cr, h1, h2 => by
    simp only [refMatch] at h1 h2 ⊢
    split_ifs at h1 h2 ⊢ <;> first
      | rfl
      | exact absurd rfl h1
      | exact absurd rfl h2
      | rw [refMatch_room n _ _ _ _ _ _ (map_ne_error h1) (map_ne_error h2)]

omit [CallbackInfo C] in
theorem refPost_room {side : Side} {cap r1 r2 : Nat} {own : List (Order C)} {o : Order C}
    (h1 : refPost side cap r1 own o ≠ .error .eventQueueFull) (h2 : refPost side cap r2 own o ≠ .error .eventQueueFull) :
    refPost side cap r1 own o = refPost side cap r2 own o := by
  unfold refPost at *
  cases hl : own.getLast? with
  | none => simp only
  | some w =>
    rw [hl] at h1 h2
    simp only at h1 h2 ⊢
    split_ifs at h1 h2 ⊢ <;> first
      | rfl
      | exact absurd rfl h1
      | exact absurd rfl h2

/-- Two reference markets that agree except for the queue. -/
structure SameCore (a b : RefMarket C) : Prop where
  minBase : a.minBase = b.minBase
  tick : a.tick = b.tick
  capBids : a.capBids = b.capBids
  capAsks : a.capAsks = b.capAsks
  seq : a.seq = b.seq
  bids : a.bids = b.bids
  asks : a.asks = b.asks

omit [CallbackInfo C] in
theorem SameCore.eq {a b : RefMarket C} (h : SameCore a b) :
    b = { a with capEvents := b.capEvents, events := b.events } := by
  cases a; cases b
  obtain ⟨rfl, rfl, rfl, rfl, rfl, rfl, rfl⟩ := h
  rfl

omit [CallbackInfo C] in
theorem orders_with (a : RefMarket C) (k : Nat) (es : List (Event C)) (side : Side) :
    ({ a with capEvents := k, events := es } : RefMarket C).orders side = a.orders side := by
  cases side <;> rfl

omit [CallbackInfo C] in
theorem cap_with (a : RefMarket C) (k : Nat) (es : List (Event C)) (side : Side) :
    ({ a with capEvents := k, events := es } : RefMarket C).cap side = a.cap side := by
  cases side <;> rfl

theorem newOrder_room {a : RefMarket C} {k : Nat} {fs : List (Event C)} {p : NewOrderParams C}
    (h1 : a.newOrder p ≠ .error (.ao .eventQueueFull))
    (h2 : ({ a with capEvents := k, events := fs } : RefMarket C).newOrder p ≠ .error (.ao .eventQueueFull)) :
    (∃ e, a.newOrder p = .error e ∧ ({ a with capEvents := k, events := fs } : RefMarket C).newOrder p = .error e) ∨
    ∃ s a' es, a.newOrder p = .ok (s, a') ∧ a'.events = a.events ++ es ∧
      ({ a with capEvents := k, events := fs } : RefMarket C).newOrder p =
        .ok (s, { a' with capEvents := k, events := fs ++ es }) := by
  unfold RefMarket.newOrder at *
  simp only [orders_with, cap_with] at h1 h2 ⊢
  by_cases ht : a.tick = 0
  · exact .inl ⟨.panic, by rw [if_pos ht], by rw [if_pos ht]⟩
  rw [if_neg ht] at h1 h2
  rw [if_neg ht, if_neg ht]
  by_cases hl : p.limitPrice % a.tick ≠ 0 ∨ (p.postAllowed ∧ p.limitPrice < a.tick)
  · exact .inl ⟨_, by rw [if_pos hl], by rw [if_pos hl]⟩
  rw [if_neg hl] at h1 h2
  rw [if_neg hl, if_neg hl]
  have hm := refMatch_room (p := p) (mb := a.minBase) p.matchLimit (a.capEvents - a.events.length) (k - fs.length)
    (a.orders p.side.opposite) p.maxBaseQty p.maxQuoteQty true
    (by intro h; rw [h] at h1; exact h1 rfl) (by intro h; rw [h] at h2; exact h2 rfl)
  rw [← hm] at h2 ⊢
  cases hx : refMatch p a.minBase p.matchLimit (a.capEvents - a.events.length) (a.orders p.side.opposite)
    p.maxBaseQty p.maxQuoteQty true with
  | error e => exact .inl ⟨_, rfl, rfl⟩
  | ok r =>
    rw [hx] at h1 h2
    simp only at h1 h2 ⊢
    split_ifs at h1 h2 ⊢ with hc hs
    · right
      refine ⟨_, _, r.events, rfl, rfl, ?_⟩
      cases p.side <;> rfl
    · exact .inl ⟨_, rfl, rfl⟩
    · have hown : ∀ (cap' : Nat) (ev : List (Event C)),
        (({ a with capEvents := cap', events := ev } : RefMarket C).setOrders p.side.opposite r.opp).orders p.side =
          a.orders p.side := by
        intro _ _; cases p.side <;> rfl
      have hown' : (a.setOrders p.side.opposite r.opp).orders p.side = a.orders p.side := by
        cases p.side <;> rfl
      have hw : ∀ (x : RefMarket C) ev, ({ x with events := ev } : RefMarket C).orders p.side = x.orders p.side := by
        intro _ _; cases p.side <;> rfl
      rw [hw, hown] at h2
      rw [hw, hown'] at h1
      rw [hw, hown', hw, hown]
      have hp := refPost_room (side := p.side) (cap := a.cap p.side) (r1 := a.capEvents - (a.events ++ r.events).length)
        (r2 := k - (fs ++ r.events).length) (own := a.orders p.side)
        (o := ⟨mkOrderId p.side p.limitPrice a.seq, min (affordable r.quote p.limitPrice) r.base, p.callbackInfo⟩)
        (by intro h; rw [h] at h1; exact h1 rfl) (by intro h; rw [h] at h2; exact h2 rfl)
      rw [← hp] at h2 ⊢
      cases hy : refPost p.side (a.cap p.side) (a.capEvents - (a.events ++ r.events).length) (a.orders p.side)
        ⟨mkOrderId p.side p.limitPrice a.seq, min (affordable r.quote p.limitPrice) r.base, p.callbackInfo⟩ with
      | error e => exact .inl ⟨_, rfl, rfl⟩
      | ok po =>
        right
        simp only
        split_ifs
        · refine ⟨_, _, r.events ++ po.events, rfl, by simp, ?_⟩
          cases p.side <;> simp [RefMarket.setOrders, Side.opposite]
        · refine ⟨_, _, r.events, rfl, rfl, ?_⟩
          cases p.side <;> rfl

/-- Another queue. -/
def RefMarket.withQueue (a : RefMarket C) (k : Nat) (fs : List (Event C)) : RefMarket C :=
  { a with capEvents := k, events := fs }

omit [CallbackInfo C] in
theorem cancel1_withQueue (a : RefMarket C) (k : Nat) (fs : List (Event C)) (id : Nat) :
    (a.withQueue k fs).cancel1 id = (a.cancel1 id).map (fun x => (x.1, x.2.withQueue k fs)) := by
  unfold RefMarket.cancel1
  rw [show (a.withQueue k fs).orders (sideOfId id) = a.orders (sideOfId id) from orders_with a k fs _]
  cases (a.orders (sideOfId id)).find? (fun o => o.id == id) with
  | none => rfl
  | some o => cases sideOfId id <;> rfl

omit [CallbackInfo C] in
theorem massCancel_withQueue (k : Nat) (fs : List (Event C)) : ∀ (ids : List Nat) (b q : Nat) (a : RefMarket C),
    RefMarket.massCancelFrom ids b q (a.withQueue k fs) =
      (RefMarket.massCancelFrom ids b q a).map (fun x => (x.1, x.2.1, x.2.2.withQueue k fs))
  | [], _, _, _ => rfl
  | id :: ids, b, q, a => by
    simp only [RefMarket.massCancelFrom, cancel1_withQueue]
    cases a.cancel1 id with
    | none => rfl
    | some x =>
      simp only [Option.map_some]
      by_cases h : b + x.1.qty < 2 ^ 64 ∧ worth .ask x.1.qty x.1.price + q < 2 ^ 64
      · simp only [h, and_self, if_true]; exact massCancel_withQueue k fs ids _ _ _
      · simp only [h, if_false]; rfl

/-- Instructions other than `consume_events` do not depend on the queue, as long as it has room. -/
theorem exec_room {a : RefMarket C} {k : Nat} {fs : List (Event C)} {i : Instr C} (hi : i.isCrank = false)
    (h1 : a.exec i ≠ .error (.ao .eventQueueFull))
    (h2 : (a.withQueue k fs).exec i ≠ .error (.ao .eventQueueFull)) :
    (∃ e, a.exec i = .error e ∧ (a.withQueue k fs).exec i = .error e) ∨
    ∃ s a' es, a.exec i = .ok (s, a') ∧ a'.events = a.events ++ es ∧
      (a.withQueue k fs).exec i = .ok (s, a'.withQueue k (fs ++ es)) := by
  cases i with
  | newOrder p =>
    simp only [RefMarket.exec] at h1 h2 ⊢
    rcases newOrder_room (map_ne_error h1) (map_ne_error h2) with ⟨e, g1, g2⟩ | ⟨s, a', es, g1, g2, g3⟩
    · exact .inl ⟨e, by rw [g1]; rfl, by unfold RefMarket.withQueue; rw [g2]; rfl⟩
    · exact .inr ⟨some s, a', es, by rw [g1]; rfl, g2, by unfold RefMarket.withQueue; rw [g3]; rfl⟩
  | cancelOrder id =>
    simp only [RefMarket.exec, RefMarket.cancelOrder, cancel1_withQueue]
    cases hx : a.cancel1 id with
    | none => exact .inl ⟨_, rfl, rfl⟩
    | some x =>
      obtain ⟨_, _, he⟩ := cancel1_params hx
      exact .inr ⟨_, _, [], rfl, by rw [List.append_nil]; exact he, by rw [List.append_nil]; rfl⟩
  | massCancelOrders ids =>
    simp only [RefMarket.exec, RefMarket.massCancelOrders, massCancel_withQueue]
    cases hx : RefMarket.massCancelFrom ids 0 0 a with
    | error e => exact .inl ⟨_, rfl, rfl⟩
    | ok x =>
      obtain ⟨_, _, he⟩ := massCancelFrom_params hx
      exact .inr ⟨_, _, [], rfl, by rw [List.append_nil]; exact he, by rw [List.append_nil]; rfl⟩
  | consumeEvents n => cases hi

/-! ### Orders in two parts -/

/-- Only some of the parameters matter for matching. -/
theorem refMatch_params {p p' : NewOrderParams C} {mb : Nat} (h1 : p'.postOnly = p.postOnly) (h2 : p'.side = p.side)
    (h3 : p'.limitPrice = p.limitPrice) (h4 : p'.selfTradeBehavior = p.selfTradeBehavior)
    (h5 : p'.callbackInfo = p.callbackInfo) : ∀ (n r : Nat) (opp : List (Order C)) (b q : Nat) (cr : Bool),
    refMatch p' mb n r opp b q cr = refMatch p mb n r opp b q cr
  | 0, _, _, _, _, _ => rfl
  | _ + 1, _, [], _, _, _ => rfl
  | n + 1, r, o :: rest, b, q, cr => by
    simp only [refMatch, h1, h2, h3, h4, h5, refMatch_params h1 h2 h3 h4 h5 n]

omit [CallbackInfo C] in
@[simp] theorem emit_nil (r : MatchOut C) : MatchOut.emit [] r = r := rfl

omit [CallbackInfo C] in
theorem emit_emit (es fs : List (Event C)) (r : MatchOut C) :
    MatchOut.emit es (MatchOut.emit fs r) = MatchOut.emit (es ++ fs) r := by
  simp [MatchOut.emit]

/-- Matching with more rounds, started from where matching stopped by itself, does nothing. -/
theorem refMatch_stopped {p : NewOrderParams C} {mb room b q : Nat} {o : Order C} {rest : List (Order C)}
    {cr : Bool} (n : Nat)
    (h : (p.postOnly || !p.side.accepts p.limitPrice o.price) = true ∧ cr = p.side.accepts p.limitPrice o.price ∨
      (p.postOnly || !p.side.accepts p.limitPrice o.price) = false ∧ cr = true ∧
      (min (min o.qty b) (affordable q o.price) = 0 ∨
        worth p.side (min (min o.qty b) (affordable q o.price)) o.price = 0)) :
    refMatch p mb n room (o :: rest) b q cr = .ok ⟨[], o :: rest, b, q, cr⟩ := by
  cases n with
  | zero => rfl
  | succ n =>
    simp only [refMatch]
    rcases h with ⟨h, rfl⟩ | ⟨h, rfl, h'⟩
    · rw [if_pos h]
    · rw [if_neg (by rw [h]; decide), if_pos h']

/-- One round in front of two parts. -/
theorem split_round {p : NewOrderParams C} {mb n2 room k : Nat} {es : List (Event C)} (hk : es.length = k)
    (x : Except AoError (MatchOut C)) :
    ((match x with
      | .error e => .error e
      | .ok r => (refMatch p mb n2 (room - k - r.events.length) r.opp r.base r.quote r.crossed).map
          (MatchOut.emit r.events) : Except AoError (MatchOut C))).map (MatchOut.emit es) =
    match x.map (MatchOut.emit es) with
    | .error e => .error e
    | .ok r => (refMatch p mb n2 (room - r.events.length) r.opp r.base r.quote r.crossed).map
        (MatchOut.emit r.events) := by
  cases x with
  | error e => rfl
  | ok r =>
    simp only [Except.map, MatchOut.emit, List.length_append, hk]
    rw [Nat.sub_add_eq]
    cases refMatch p mb n2 (room - k - r.events.length) r.opp r.base r.quote r.crossed with
    | error e => rfl
    | ok y => simp only [List.append_assoc]

/-- Matching for `n1 + n2` rounds is matching for `n1` rounds and then for `n2` more. -/
theorem refMatch_split {p : NewOrderParams C} {mb n2 : Nat} : ∀ (n1 room : Nat) (opp : List (Order C)) (b q : Nat) (cr : Bool),
    refMatch p mb (n1 + n2) room opp b q cr =
      match refMatch p mb n1 room opp b q cr with
      | .error e => .error e
      | .ok r => (refMatch p mb n2 (room - r.events.length) r.opp r.base r.quote r.crossed).map (MatchOut.emit r.events)
  | 0, room, opp, b, q, cr => by
    rw [Nat.zero_add]
    simp only [refMatch, List.length_nil, Nat.sub_zero]
    cases refMatch p mb n2 room opp b q cr with
    | error e => rfl
    | ok x => rfl
  | n1 + 1, room, [], b, q, cr => by
    rw [show n1 + 1 + n2 = (n1 + n2) + 1 by omega]
    cases n2 <;> rfl
  | n1 + 1, room, o :: rest, b, q, cr => by
    rw [show n1 + 1 + n2 = (n1 + n2) + 1 by omega]
    simp only [refMatch]
    by_cases h1 : (p.postOnly || !p.side.accepts p.limitPrice o.price) = true
    · rw [if_pos h1, if_pos h1]
      simp only [refMatch_stopped n2 (.inl ⟨h1, rfl⟩)]
      rfl
    rw [if_neg h1, if_neg h1]
    by_cases h2 : min (min o.qty b) (affordable q o.price) = 0 ∨
        worth p.side (min (min o.qty b) (affordable q o.price)) o.price = 0
    · rw [if_pos h2, if_pos h2]
      simp only [refMatch_stopped n2 (.inr ⟨by simpa using h1, rfl, h2⟩)]
      rfl
    rw [if_neg h2, if_neg h2]
    split_ifs
    · rfl
    · rfl
    · rw [refMatch_split n1]; exact split_round rfl _
    · rfl
    · rw [refMatch_split n1]; exact split_round rfl _
    · rfl
    · rw [refMatch_split n1]; exact split_round rfl _

/-- The flag given at the start only matters if there are no rounds. -/
theorem refMatch_flag {p : NewOrderParams C} {mb n r : Nat} {opp : List (Order C)} {b q : Nat} {cr cr' : Bool}
    (hn : 0 < n) : refMatch p mb n r opp b q cr = refMatch p mb n r opp b q cr' := by
  obtain ⟨n, rfl⟩ : ∃ k, n = k + 1 := ⟨n - 1, by omega⟩
  cases opp <;> rfl

/-- What `RefMarket.newOrder` does after matching. -/
def RefMarket.finish (a : RefMarket C) (p : NewOrderParams C) (r : MatchOut C) : Except Err (OrderSummary × RefMarket C) :=
  let a1 := { a.setOrders p.side.opposite r.opp with events := a.events ++ r.events }
  let noPost : OrderSummary :=
    { postedOrderId := none, totalBaseQty := p.maxBaseQty - r.base,
      totalQuoteQty := p.maxQuoteQty - r.quote, totalBaseQtyPosted := 0 }
  let toPost := min (affordable r.quote p.limitPrice) r.base
  if r.crossed || !p.postAllowed || decide (toPost < a.minBase) then .ok (noPost, a1)
  else if a.seq + 1 ≥ 2 ^ 64 then .error .panic
  else
    let id := mkOrderId p.side p.limitPrice a.seq
    let a2 := { a1 with seq := a.seq + 1 }
    match refPost p.side (a.cap p.side) (a.capEvents - a1.events.length) (a1.orders p.side)
        ⟨id, toPost, p.callbackInfo⟩ with
    | .error e => .error (.ao e)
    | .ok po =>
      if po.posted then
        .ok ({ postedOrderId := some id, totalBaseQty := p.maxBaseQty - (r.base - toPost),
               totalQuoteQty := p.maxQuoteQty - (r.quote - worth p.side toPost p.limitPrice),
               totalBaseQtyPosted := toPost },
             { a2.setOrders p.side po.own with events := a1.events ++ po.events })
      else .ok (noPost, a2)

theorem newOrder_eq (a : RefMarket C) (p : NewOrderParams C) :
    a.newOrder p =
      if a.tick = 0 then .error .panic
      else if p.limitPrice % a.tick ≠ 0 ∨ (p.postAllowed ∧ p.limitPrice < a.tick) then .error (.ao .invalidLimitPrice)
      else match refMatch p a.minBase p.matchLimit (a.capEvents - a.events.length) (a.orders p.side.opposite)
          p.maxBaseQty p.maxQuoteQty true with
        | .error e => .error (.ao e)
        | .ok r => a.finish p r := rfl

/-- The market after matching, when nothing is posted. -/
def RefMarket.matched (a : RefMarket C) (side : Side) (r : MatchOut C) : RefMarket C :=
  { a.setOrders side.opposite r.opp with events := a.events ++ r.events }

omit [CallbackInfo C] in
theorem finish_noPost {a : RefMarket C} {p : NewOrderParams C} {r : MatchOut C} (h : p.postAllowed = false ∨ r.crossed = true) :
    a.finish p r = .ok (⟨none, p.maxBaseQty - r.base, p.maxQuoteQty - r.quote, 0⟩, a.matched p.side r) := by
  unfold RefMarket.finish RefMarket.matched
  simp only
  rw [if_pos]
  rcases h with h | h <;> rw [h] <;> simp

omit [CallbackInfo C] in
theorem finish_split {a : RefMarket C} {p : NewOrderParams C} {r r2 : MatchOut C} {n2 : Nat} {s1 : OrderSummary}
    (hb : r.base ≤ p.maxBaseQty) (hq : r.quote ≤ p.maxQuoteQty) (hb2 : r2.base ≤ r.base) (hq2 : r2.quote ≤ r.quote)
    (h1 : s1 = ⟨none, p.maxBaseQty - r.base, p.maxQuoteQty - r.quote, 0⟩) :
    a.finish p (MatchOut.emit r.events r2) =
      ((a.matched p.side r).finish (p.second n2 s1) r2).map (fun x => (s1.plus x.1, x.2)) := by
  subst h1
  obtain ⟨mb, mq, lp, side, ml, cb, po, pa, st⟩ := p
  simp only at hb hq
  unfold RefMarket.finish
  simp only [Bool.or_eq_true, decide_eq_true_eq]
  unfold RefMarket.matched
  simp only [NewOrderParams.second, MatchOut.emit, OrderSummary.plus,
    show mb - (mb - r.base) = r.base by omega, show mq - (mq - r.quote) = r.quote by omega]
  have e1 : mb - r2.base = (mb - r.base) + (r.base - r2.base) := by omega
  have e2 : mq - r2.quote = (mq - r.quote) + (r.quote - r2.quote) := by omega
  have e3 : ∀ x, mb - (r2.base - x) = (mb - r.base) + (r.base - (r2.base - x)) := by omega
  have e4 : ∀ x, mq - (r2.quote - x) = (mq - r.quote) + (r.quote - (r2.quote - x)) := by omega
  rw [e1, e2, e3, e4]
  cases side <;> simp only [RefMarket.setOrders, Side.opposite, RefMarket.orders, RefMarket.cap, List.append_assoc]
  all_goals
    by_cases hc : (r2.crossed = true ∨ (!pa) = true) ∨ min (affordable r2.quote lp) r2.base < a.minBase
    · rw [if_pos hc, if_pos hc]; rfl
    rw [if_neg hc, if_neg hc]
    by_cases hs : a.seq + 1 ≥ 2 ^ 64
    · rw [if_pos hs, if_pos hs]; rfl
    rw [if_neg hs, if_neg hs]
    generalize refPost _ _ _ _ _ = y
    cases y with
    | error e => rfl
    | ok po =>
      simp only
      cases po.posted <;> rfl

/-- An order in two parts. -/
theorem newOrder_split {a : RefMarket C} {p : NewOrderParams C} {n1 n2 : Nat} (hn : p.matchLimit = n1 + n2)
    (hp : 0 < n2 ∨ p.postAllowed = false) (hl : ¬(p.postAllowed = true ∧ p.limitPrice < a.tick)) :
    a.newOrder p =
      match a.newOrder (p.first n1) with
      | .error e => .error e
      | .ok (s1, a1) =>
        match a1.newOrder (p.second n2 s1) with
        | .error e => .error e
        | .ok (s2, a2) => .ok (s1.plus s2, a2) := by
  have f1 : (p.first n1).side = p.side := rfl
  have f2 : (p.first n1).matchLimit = n1 := rfl
  have f3 : (p.first n1).maxBaseQty = p.maxBaseQty := rfl
  have f4 : (p.first n1).maxQuoteQty = p.maxQuoteQty := rfl
  have g1 : ∀ s, (p.second n2 s).side = p.side := fun _ => rfl
  have g2 : ∀ s, (p.second n2 s).matchLimit = n2 := fun _ => rfl
  have g3 : ∀ s, (p.second n2 s).maxBaseQty = p.maxBaseQty - s.totalBaseQty := fun _ => rfl
  have g4 : ∀ s, (p.second n2 s).maxQuoteQty = p.maxQuoteQty - s.totalQuoteQty := fun _ => rfl
  rw [newOrder_eq a p, newOrder_eq a (p.first n1)]
  by_cases ht : a.tick = 0
  · rw [if_pos ht, if_pos ht]
  rw [if_neg ht, if_neg ht]
  by_cases ht' : p.limitPrice % a.tick ≠ 0
  · rw [if_pos (.inl ht'), if_pos (.inl ht')]
  rw [if_neg (by rintro (h | h); exact ht' h; exact hl h),
    if_neg (by rintro (h | h); exact ht' h; cases h.1)]
  rw [refMatch_params (p := p) (p' := p.first n1) rfl rfl rfl rfl rfl, hn, refMatch_split]
  rw [f1, f2, f3, f4]
  cases hx : refMatch p a.minBase n1 (a.capEvents - a.events.length) (a.orders p.side.opposite) p.maxBaseQty
    p.maxQuoteQty true with
  | error e => rfl
  | ok r =>
    obtain ⟨hb, hq⟩ := refMatch_le hx
    simp only
    rw [finish_noPost (.inl rfl), f1, f3, f4]
    simp only
    have htick : (a.matched p.side r).tick = a.tick := by
      unfold RefMarket.matched; cases p.side <;> rfl
    have hmin : (a.matched p.side r).minBase = a.minBase := by
      unfold RefMarket.matched; cases p.side <;> rfl
    have hcap : (a.matched p.side r).capEvents = a.capEvents := by
      unfold RefMarket.matched; cases p.side <;> rfl
    have hev : (a.matched p.side r).events = a.events ++ r.events := rfl
    have hord : (a.matched p.side r).orders p.side.opposite = r.opp := by
      unfold RefMarket.matched; cases p.side <;> rfl
    rw [newOrder_eq, htick, if_neg ht, if_neg (by rintro (h | h); exact ht' h; exact hl h),
      refMatch_params (p := p) (p' := p.second _ _) rfl rfl rfl rfl rfl, hmin, hcap, hev, List.length_append, Nat.sub_add_eq]
    rw [g1, g2, g3, g4]
    simp only
    rw [hord, show p.maxBaseQty - (p.maxBaseQty - r.base) = r.base by omega,
      show p.maxQuoteQty - (p.maxQuoteQty - r.quote) = r.quote by omega]
    rcases Nat.eq_zero_or_pos n2 with h0 | hp'
    · subst h0
      rcases hp with hp | hp
      · omega
      simp only [refMatch, Except.map]
      rw [finish_noPost (.inl hp), finish_noPost (.inr rfl)]
      simp only [OrderSummary.plus, NewOrderParams.second, MatchOut.emit, RefMarket.matched,
        List.append_nil, Except.ok.injEq, Prod.mk.injEq, OrderSummary.mk.injEq, true_and, and_true]
      refine ⟨by omega, ?_⟩
      cases p.side <;> rfl
    · rw [refMatch_flag hp' (cr := true) (cr' := r.crossed)]
      cases hy : refMatch p a.minBase n2 (a.capEvents - a.events.length - r.events.length) r.opp r.base r.quote
        r.crossed with
      | error e => rfl
      | ok r2 =>
        obtain ⟨hb2, hq2⟩ := refMatch_le hy
        simp only [Except.map]
        rw [finish_split (n2 := n2) hb hq hb2 hq2 rfl]
        generalize RefMarket.finish _ _ r2 = z
        cases z <;> rfl

/-! ### Renaming users -/

variable {D : Type} [CallbackInfo D]

omit [CallbackInfo C] [CallbackInfo D]

@[simp] theorem rename_price (f : C → D) (o : Order C) : (o.rename f).price = o.price := rfl
@[simp] theorem rename_id (f : C → D) (o : Order C) : (o.rename f).id = o.id := rfl
@[simp] theorem rename_qty (f : C → D) (o : Order C) : (o.rename f).qty = o.qty := rfl
@[simp] theorem rename_cb (f : C → D) (o : Order C) : (o.rename f).cb = f o.cb := rfl

def MatchOut.rename (f : C → D) (r : MatchOut C) : MatchOut D :=
  ⟨r.events.map (Event.rename f), r.opp.map (Order.rename f), r.base, r.quote, r.crossed⟩

def PostOut.rename (f : C → D) (r : PostOut C) : PostOut D :=
  ⟨r.posted, r.own.map (Order.rename f), r.events.map (Event.rename f)⟩

def RefMarket.rename (f : C → D) (a : RefMarket C) : RefMarket D :=
  { minBase := a.minBase, tick := a.tick, capBids := a.capBids, capAsks := a.capAsks, capEvents := a.capEvents,
    seq := a.seq, bids := a.bids.map (Order.rename f), asks := a.asks.map (Order.rename f),
    events := a.events.map (Event.rename f) }

theorem emit_rename (f : C → D) (es : List (Event C)) (x : Except AoError (MatchOut C)) :
    (x.map (MatchOut.emit es)).map (MatchOut.rename f) =
      (x.map (MatchOut.rename f)).map (MatchOut.emit (es.map (Event.rename f))) := by
  cases x with
  | error e => rfl
  | ok r => simp [Except.map, MatchOut.emit, MatchOut.rename]

theorem refMatch_rename [CallbackInfo C] [CallbackInfo D] {f : C → D} {p : NewOrderParams C} (hf : p.Keeps f) {mb : Nat} :
    ∀ (n room : Nat) (opp : List (Order C)) (b q : Nat) (cr : Bool),
    refMatch (p.rename f) mb n room (opp.map (Order.rename f)) b q cr =
      (refMatch p mb n room opp b q cr).map (MatchOut.rename f)
  | 0, _, _, _, _, _ => rfl
  | _ + 1, _, [], _, _, _ => rfl
  | n + 1, room, o :: rest, b, q, cr => by
    simp only [List.map_cons, refMatch, rename_price, rename_qty, rename_cb, rename_id]
    have hp : (p.rename f).postOnly = p.postOnly := rfl
    have hs : (p.rename f).side = p.side := rfl
    have hl : (p.rename f).limitPrice = p.limitPrice := rfl
    have hb : (p.rename f).selfTradeBehavior = p.selfTradeBehavior := rfl
    have hc : (p.rename f).callbackInfo = f p.callbackInfo := rfl
    rw [hp, hs, hl, hb, hc]
    have hk : (p.selfTradeBehavior ≠ .decrementTake ∧
        CallbackInfo.asCallbackId (f p.callbackInfo) = CallbackInfo.asCallbackId (f o.cb)) ↔
        (p.selfTradeBehavior ≠ .decrementTake ∧
        CallbackInfo.asCallbackId p.callbackInfo = CallbackInfo.asCallbackId o.cb) := by
      rcases hf with hf | hf
      · simp [hf]
      · rw [hf o.cb]
    simp only [hk]
    have key : ∀ (es : List (Event C)) (r : Nat) (l : List (Order C)) (b q : Nat),
        (refMatch (p.rename f) mb n r (l.map (Order.rename f)) b q true).map
          (MatchOut.emit (es.map (Event.rename f))) =
        ((refMatch p mb n r l b q true).map (MatchOut.emit es)).map (MatchOut.rename f) := by
      intro es r l b q
      rw [refMatch_rename hf n, emit_rename]
    by_cases h1 : (p.postOnly || !p.side.accepts p.limitPrice o.price) = true
    · simp only [if_pos h1]; rfl
    by_cases h2 : min (min o.qty b) (affordable q o.price) = 0 ∨
        worth p.side (min (min o.qty b) (affordable q o.price)) o.price = 0
    · simp only [if_neg h1, if_pos h2]; rfl
    simp only [if_neg h1, if_neg h2]
    by_cases h3 : p.selfTradeBehavior ≠ .decrementTake ∧
        CallbackInfo.asCallbackId p.callbackInfo = CallbackInfo.asCallbackId o.cb
    · simp only [if_pos h3]
      by_cases h4 : p.selfTradeBehavior = .abortTransaction
      · simp only [if_pos h4]; rfl
      by_cases h5 : room = 0
      · simp only [if_neg h4, if_pos h5]; rfl
      simp only [if_neg h4, if_neg h5]
      exact key [.out p.side.opposite o.id o.qty o.cb] (room - 1) rest b q
    simp only [if_neg h3]
    by_cases h4 : o.qty - min (min o.qty b) (affordable q o.price) < mb
    · simp only [h4, if_true]
      by_cases h5 : room ≤ 1
      · simp only [if_pos h5]; rfl
      simp only [if_neg h5]
      exact key [.fill p.side o.id _ _ o.cb p.callbackInfo, .out p.side.opposite o.id _ o.cb] (room - 2) rest _ _
    · simp only [h4, if_false]
      by_cases h5 : room = 0
      · simp only [if_pos h5]; rfl
      simp only [if_neg h5]
      exact key [.fill p.side o.id _ _ o.cb p.callbackInfo] (room - 1)
        ({ o with qty := o.qty - min (min o.qty b) (affordable q o.price) } :: rest) _ _

theorem insertOrder_rename (f : C → D) (side : Side) (o : Order C) (l : List (Order C)) :
    insertOrder side (o.rename f) (l.map (Order.rename f)) = (insertOrder side o l).map (Order.rename f) := by
  unfold insertOrder
  rw [List.map_append, List.map_cons, List.takeWhile_map, List.dropWhile_map]
  rfl

theorem refPost_rename (f : C → D) (side : Side) (cap room : Nat) (own : List (Order C)) (o : Order C) :
    refPost side cap room (own.map (Order.rename f)) (o.rename f) =
      (refPost side cap room own o).map (PostOut.rename f) := by
  unfold refPost
  rw [List.length_map, List.getLast?_map, insertOrder_rename, ← List.map_dropLast]
  cases own.getLast? with
  | none => simp only [Option.map_none]; split_ifs <;> rfl
  | some w =>
    simp only [Option.map_some, rename_price, rename_id, rename_qty, rename_cb, insertOrder_rename]
    split_ifs <;> rfl

theorem orders_rename (f : C → D) (a : RefMarket C) (side : Side) :
    (a.rename f).orders side = (a.orders side).map (Order.rename f) := by cases side <;> rfl

theorem finish_rename (f : C → D) (a : RefMarket C) (p : NewOrderParams C) (r : MatchOut C) :
    (a.rename f).finish (p.rename f) (r.rename f) = (a.finish p r).map (fun x => (x.1, x.2.rename f)) := by
  obtain ⟨mb, mq, lp, side, ml, cb, po, pa, st⟩ := p
  unfold RefMarket.finish
  simp only [Bool.or_eq_true, decide_eq_true_eq]
  simp only [NewOrderParams.rename, MatchOut.rename, RefMarket.rename]
  by_cases hc : (r.crossed = true ∨ (!pa) = true) ∨ min (affordable r.quote lp) r.base < a.minBase
  · simp only [hc, if_true]
    cases side <;> simp [Except.map, RefMarket.setOrders, Side.opposite]
  simp only [hc, if_false]
  by_cases hs : a.seq + 1 ≥ 2 ^ 64
  · simp only [hs, if_true]; rfl
  simp only [hs, if_false]
  have hr : ∀ (room : Nat) (own : List (Order C)), refPost side (a.cap side) room (own.map (Order.rename f))
      ⟨mkOrderId side lp a.seq, min (affordable r.quote lp) r.base, f cb⟩ =
      (refPost side (a.cap side) room own
        ⟨mkOrderId side lp a.seq, min (affordable r.quote lp) r.base, cb⟩).map (PostOut.rename f) :=
    fun room own => refPost_rename f side (a.cap side) room own ⟨mkOrderId side lp a.seq, min (affordable r.quote lp) r.base, cb⟩
  cases side <;> simp only [RefMarket.setOrders, Side.opposite, RefMarket.orders, RefMarket.cap] at hr ⊢
  all_goals
    simp only [← List.map_append, List.length_map, hr]
    generalize refPost _ _ _ _ _ = y
    cases y with
    | error e => rfl
    | ok po =>
      simp only [Except.map, PostOut.rename]
      cases po.posted <;> simp

theorem newOrder_rename [CallbackInfo C] [CallbackInfo D] {f : C → D} (a : RefMarket C)
    {p : NewOrderParams C} (hf : p.Keeps f) :
    (a.rename f).newOrder (p.rename f) = (a.newOrder p).map (fun x => (x.1, x.2.rename f)) := by
  rw [newOrder_eq, newOrder_eq]
  show (if a.tick = 0 then _ else if p.limitPrice % a.tick ≠ 0 ∨ (p.postAllowed ∧ p.limitPrice < a.tick) then _ else _) = _
  by_cases ht : a.tick = 0
  · rw [if_pos ht, if_pos ht]; rfl
  rw [if_neg ht, if_neg ht]
  by_cases hl : p.limitPrice % a.tick ≠ 0 ∨ (p.postAllowed ∧ p.limitPrice < a.tick)
  · rw [if_pos hl, if_pos hl]; rfl
  rw [if_neg hl, if_neg hl]
  have hm := refMatch_rename hf (mb := a.minBase) p.matchLimit (a.capEvents - a.events.length)
    (a.orders p.side.opposite) p.maxBaseQty p.maxQuoteQty true
  have e : (a.rename f).capEvents - (a.rename f).events.length = a.capEvents - a.events.length := by
    simp [RefMarket.rename]
  have hm' : refMatch (p.rename f) (a.rename f).minBase (p.rename f).matchLimit
      ((a.rename f).capEvents - (a.rename f).events.length) ((a.rename f).orders (p.rename f).side.opposite)
      (p.rename f).maxBaseQty (p.rename f).maxQuoteQty true =
      (refMatch p a.minBase p.matchLimit (a.capEvents - a.events.length) (a.orders p.side.opposite)
        p.maxBaseQty p.maxQuoteQty true).map (MatchOut.rename f) := by
    rw [e, orders_rename]; exact hm
  rw [hm']
  cases refMatch p a.minBase p.matchLimit (a.capEvents - a.events.length) (a.orders p.side.opposite)
    p.maxBaseQty p.maxQuoteQty true with
  | error e => rfl
  | ok r => exact finish_rename f a p r

theorem cancel1_rename (f : C → D) (a : RefMarket C) (id : Nat) :
    (a.rename f).cancel1 id = (a.cancel1 id).map (fun x => (x.1.rename f, x.2.rename f)) := by
  unfold RefMarket.cancel1
  rw [orders_rename, List.find?_map]
  have hc : ((fun o : Order D => o.id == id) ∘ Order.rename f) = fun o : Order C => o.id == id := rfl
  rw [hc]
  cases (a.orders (sideOfId id)).find? (fun o => o.id == id) with
  | none => rfl
  | some o =>
    simp only [Option.map_some, Option.some.injEq, Prod.mk.injEq, true_and]
    rw [List.filter_map]
    cases sideOfId id <;> rfl

theorem massCancel_rename (f : C → D) : ∀ (ids : List Nat) (b q : Nat) (a : RefMarket C),
    RefMarket.massCancelFrom ids b q (a.rename f) =
      (RefMarket.massCancelFrom ids b q a).map (fun x => (x.1, x.2.1, x.2.2.rename f))
  | [], _, _, _ => rfl
  | id :: ids, b, q, a => by
    simp only [RefMarket.massCancelFrom, cancel1_rename]
    cases a.cancel1 id with
    | none => rfl
    | some x =>
      simp only [Option.map_some, rename_qty, rename_price]
      by_cases h : b + x.1.qty < 2 ^ 64 ∧ worth .ask x.1.qty x.1.price + q < 2 ^ 64
      · simp only [h, and_self, if_true]; exact massCancel_rename f ids _ _ _
      · simp only [h, if_false]; rfl

theorem exec_rename [CallbackInfo C] [CallbackInfo D] {f : C → D} (a : RefMarket C) {i : Instr C} (hf : i.Keeps f) :
    (a.rename f).exec (i.rename f) = (a.exec i).map (fun x => (x.1, x.2.rename f)) := by
  cases i with
  | newOrder p =>
    simp only [Instr.rename, RefMarket.exec, newOrder_rename a hf]
    cases a.newOrder p <;> rfl
  | cancelOrder id =>
    simp only [Instr.rename, RefMarket.exec, RefMarket.cancelOrder, cancel1_rename]
    cases a.cancel1 id <;> rfl
  | massCancelOrders ids =>
    simp only [Instr.rename, RefMarket.exec, RefMarket.massCancelOrders, massCancel_rename]
    cases RefMarket.massCancelFrom ids 0 0 a <;> rfl
  | consumeEvents n =>
    simp [Instr.rename, RefMarket.exec, Except.map, RefMarket.rename]

theorem run_rename [CallbackInfo C] [CallbackInfo D] {f : C → D} (is : List (Instr C))
    (hf : ∀ i ∈ is, i.Keeps f) : ∀ a : RefMarket C, (a.rename f).run (is.map (Instr.rename f)) = (a.run is).rename f := by
  induction is with
  | nil => intro a; rfl
  | cons i is ih =>
    intro a
    have hs : (a.rename f).step (i.rename f) = (a.step i).rename f := by
      unfold RefMarket.step
      rw [exec_rename a (hf i List.mem_cons_self)]
      cases a.exec i <;> rfl
    have := ih (fun j hj => hf j (List.mem_cons_of_mem _ hj)) (a.step i)
    unfold RefMarket.run at *
    rw [List.map_cons, List.foldl_cons, List.foldl_cons, hs, this]

end AOB
