import Verif.Proofs.View
import Verif.Spec.Demo
/-
Properties of one successful `new_order` on a reachable market.
`resting`, `pending`, `emitted` are read with the code base's own iterators (`Spec/Observe.lean`).
-/
namespace AOB
variable {C : Type} [CallbackInfo C] {m m' : Market C} {p : NewOrderParams C} {s : OrderSummary}

/-- C02, rank: the resting orders are listed best price first. -/
theorem C02_rank_is_price (h : Reachable m) (side : Side) :
    (resting m side).Pairwise (fun x y =>
      match side with | .bid => y.price ≤ x.price | .ask => x.price ≤ y.price) := by
  obtain ⟨a, ha⟩ := h.known
  rw [ha.rep.resting]
  refine (ha.inv.sorted side).imp ?_
  intro x y hxy
  cases side <;> simp only [Side.before, Order.price] at * <;>
    exact Nat.div_le_div_right (Nat.le_of_lt hxy)

/-- C02, priority: if an event names the order `y` of the opposite side, then every order `x` ranked before
`y` is gone, its `Out` event was emitted before any event about `y`, and no event about `x` follows. -/
theorem C02_priority (h : Reachable m) (hp : (Instr.newOrder p).Ok) (he : m.newOrder p = .ok (s, m'))
    {x y : Order C} (hxy : [x, y].Sublist (resting m p.side.opposite))
    (hy : ∃ e ∈ emitted m m', e.id = y.id) :
    (∀ o ∈ resting m' p.side.opposite, o.id ≠ x.id) ∧
    ∃ es1 es2, emitted m m' = es1 ++ es2 ∧ (∀ e ∈ es1, e.id ≠ y.id) ∧ (∀ e ∈ es2, e.id ≠ x.id) ∧
      outsOf x.id es1 ≠ [] := by
  obtain ⟨a, a', n, r, ex, v⟩ := h.view hp he
  rw [v.rest] at hxy
  have hnd := v.known.inv.nodup p.side.opposite
  have hxm : x ∈ a.orders p.side.opposite := hxy.subset (by simp)
  have hym : y ∈ a.orders p.side.opposite := hxy.subset (by simp)
  have hy' : ∃ e ∈ r.events, e.id = y.id := by
    obtain ⟨e, he, hid⟩ := hy
    rw [v.em] at he
    rcases List.mem_append.1 he with he | he
    · exact ⟨e, he, hid⟩
    · exact absurd hid (v.ex_ne hym e he)
  obtain ⟨es1, es2, h1, h2, h3, h4⟩ := v.ok.steps.priority hnd x y hxy hy'
  refine ⟨?_, es1, es2 ++ ex, ?_, h2, ?_, h4⟩
  · intro o ho hid
    rw [v.rest', v.opp', v.ok.steps.survive hnd, List.mem_filterMap] at ho
    obtain ⟨z, hz, hs⟩ := ho
    unfold survivor at hs
    split at hs
    · rename_i hem
      cases hs
      simp only at hid
      rw [List.isEmpty_iff, hid, h1, outsOf_append, List.append_eq_nil_iff] at hem
      exact h4 hem.1
    · cases hs
  · rw [v.em, h1, List.append_assoc]
  · intro e he
    rcases List.mem_append.1 he with he | he
    · exact h3 e he
    · exact v.ex_ne hxm e he

/-- C03: every fill is with an order of the opposite side, at a price the limit allows. -/
theorem C03_limit_respected (h : Reachable m) (hp : (Instr.newOrder p).Ok) (he : m.newOrder p = .ok (s, m'))
    {e : Event C} (hm : e ∈ emitted m m') (hf : e.isFill = true) :
    e.makerSide = p.side.opposite ∧ (∃ o ∈ resting m p.side.opposite, o.id = e.id) ∧
    match p.side with
    | .bid => e.id / 2 ^ 64 ≤ p.limitPrice
    | .ask => p.limitPrice ≤ e.id / 2 ^ 64 := by
  obtain ⟨a, a', n, r, ex, v⟩ := h.view hp he
  obtain ⟨o, ho, t, rfl, _, _, _, hacc, _⟩ := v.ok.steps.fill e (v.mem_fill hm hf) hf
  refine ⟨rfl, ⟨o, by rw [v.rest]; exact ho, rfl⟩, ?_⟩
  cases hs : p.side <;> rw [hs] at hacc <;> exact of_decide_eq_true hacc

/-- C04: neither the summary nor the fills and the posted remainder together exceed the caps. -/
theorem C04_caps (h : Reachable m) (hp : (Instr.newOrder p).Ok) (he : m.newOrder p = .ok (s, m')) :
    s.totalBaseQty ≤ p.maxBaseQty ∧ s.totalQuoteQty ≤ p.maxQuoteQty ∧
    sumBase (fills (emitted m m')) + s.totalBaseQtyPosted ≤ p.maxBaseQty ∧
    sumQuote (fills (emitted m m')) + worth p.side s.totalBaseQtyPosted p.limitPrice ≤ p.maxQuoteQty := by
  obtain ⟨a, a', n, r, ex, v⟩ := h.view hp he
  obtain ⟨h1, h2⟩ := v.ok.steps.sums
  rw [v.fills]
  have hw0 : worth p.side 0 p.limitPrice = 0 := by cases p.side <;> simp [worth]
  rcases v.post with ⟨hc, _⟩ | ⟨hc, _⟩ | ⟨kept, ev, hc, _⟩
  · rw [hc.sum]; simp only [hw0]; omega
  · rw [hc.sum]; simp only [hw0]; omega
  · rw [hc.sum]
    have hw := worth_le_affordable (side := p.side)
      (Nat.min_le_left (affordable r.quote p.limitPrice) r.base)
    have hb := Nat.min_le_right (affordable r.quote p.limitPrice) r.base
    simp only
    generalize min (affordable r.quote p.limitPrice) r.base = t at *
    generalize worth p.side t p.limitPrice = w at *
    omega

/-- C05: the summary adds up. -/
theorem C05_summary (h : Reachable m) (hp : (Instr.newOrder p).Ok) (he : m.newOrder p = .ok (s, m')) :
    s.totalBaseQty = sumBase (fills (emitted m m')) + s.totalBaseQtyPosted ∧
    s.totalQuoteQty = sumQuote (fills (emitted m m')) +
      (match p.side with
        | .bid => (s.totalBaseQtyPosted * p.limitPrice + (2 ^ 32 - 1)) / 2 ^ 32
        | .ask => s.totalBaseQtyPosted * p.limitPrice / 2 ^ 32) := by
  obtain ⟨a, a', n, r, ex, v⟩ := h.view hp he
  obtain ⟨h1, h2⟩ := v.ok.steps.sums
  rw [v.fills]
  have hw0 : worth p.side 0 p.limitPrice = 0 := by cases p.side <;> simp [worth]
  show _ ∧ _ = _ + worth p.side s.totalBaseQtyPosted p.limitPrice
  rcases v.post with ⟨hc, _⟩ | ⟨hc, _⟩ | ⟨kept, ev, hc, _⟩
  · rw [hc.sum]; simp only [hw0]; omega
  · rw [hc.sum]; simp only [hw0]; omega
  · rw [hc.sum]
    have hw := worth_le_affordable (side := p.side)
      (Nat.min_le_left (affordable r.quote p.limitPrice) r.base)
    have hb := Nat.min_le_right (affordable r.quote p.limitPrice) r.base
    simp only
    generalize min (affordable r.quote p.limitPrice) r.base = t at *
    generalize worth p.side t p.limitPrice = w at *
    omega

/-- C06: the quote size of a fill is its value at the maker's price, rounded up for a buying taker and down
for a selling one; neither size is zero. -/
theorem C06_fill_value (h : Reachable m) (hp : (Instr.newOrder p).Ok) (he : m.newOrder p = .ok (s, m'))
    {ts : Side} {id base quote : Nat} {mc tc : C} (hm : Event.fill ts id base quote mc tc ∈ emitted m m') :
    ts = p.side ∧ 0 < base ∧ 0 < quote ∧
    quote = (match p.side with
      | .bid => (base * (id / 2 ^ 64) + (2 ^ 32 - 1)) / 2 ^ 32
      | .ask => base * (id / 2 ^ 64) / 2 ^ 32) := by
  obtain ⟨a, a', n, r, ex, v⟩ := h.view hp he
  obtain ⟨o, ho, t, heq, h1, h2, _⟩ := v.ok.steps.fill _ (v.mem_fill hm rfl) rfl
  simp only [Event.fill.injEq] at heq
  obtain ⟨rfl, rfl, rfl, rfl, _, _⟩ := heq
  exact ⟨rfl, h1, h2, rfl⟩

/-- C50: rounding favours the resting order, by less than one quote unit. -/
theorem C50_rounding (h : Reachable m) (hp : (Instr.newOrder p).Ok) (he : m.newOrder p = .ok (s, m'))
    {ts : Side} {id base quote : Nat} {mc tc : C} (hm : Event.fill ts id base quote mc tc ∈ emitted m m') :
    match p.side with
    | .bid => base * (id / 2 ^ 64) ≤ quote * 2 ^ 32 ∧ quote * 2 ^ 32 < base * (id / 2 ^ 64) + 2 ^ 32
    | .ask => quote * 2 ^ 32 ≤ base * (id / 2 ^ 64) ∧ base * (id / 2 ^ 64) < quote * 2 ^ 32 + 2 ^ 32 := by
  obtain ⟨_, _, _, hq⟩ := C06_fill_value h hp he hm
  cases hs : p.side <;> rw [hs] at hq <;> simp only at hq ⊢ <;>
    generalize base * (id / 2 ^ 64) = x at * <;> omega

/-- C50, total: what a buying taker pays for its fills is at most the sum of the values of the traded
quantities at its own limit price, each rounded up. -/
theorem C50_total (h : Reachable m) (hp : (Instr.newOrder p).Ok) (he : m.newOrder p = .ok (s, m'))
    (hs : p.side = .bid) :
    sumQuote (fills (emitted m m')) ≤
      ((fills (emitted m m')).map (fun e => (e.base * p.limitPrice + (2 ^ 32 - 1)) / 2 ^ 32)).sum := by
  have key : ∀ l : List (Event C), (∀ e ∈ l, e ∈ emitted m m' ∧ e.isFill = true) →
      sumQuote l ≤ (l.map (fun e => (e.base * p.limitPrice + (2 ^ 32 - 1)) / 2 ^ 32)).sum := by
    intro l
    induction l with
    | nil => simp
    | cons e l ih =>
      intro hl
      have hh := hl e (by simp)
      have := ih (fun e he => hl e (List.mem_cons_of_mem _ he))
      rw [sumQuote_cons, List.map_cons, List.sum_cons]
      refine Nat.add_le_add ?_ this
      cases e with
      | out => cases hh.2
      | fill ts id base quote mc tc =>
        obtain ⟨_, _, _, hq⟩ := C06_fill_value h hp he hh.1
        have hlim := (C03_limit_respected h hp he hh.1 hh.2).2.2
        rw [hs] at hq hlim
        simp only [Event.id, Event.base, Event.quote] at *
        rw [hq]
        exact Nat.div_le_div_right (Nat.add_le_add_right (Nat.mul_le_mul_left _ hlim) _)
  apply key
  intro e he
  exact ⟨List.mem_of_mem_filter he, (List.mem_filter.1 he).2⟩

/-- C08 and C48, opposite side: what is left of the opposite side is determined by the events: each order
with an out event is gone, each other order stays in its place, with its quantity reduced by its fills and
everything else unchanged. -/
theorem C48_opposite_side (h : Reachable m) (hp : (Instr.newOrder p).Ok) (he : m.newOrder p = .ok (s, m')) :
    resting m' p.side.opposite = (resting m p.side.opposite).filterMap (survivor (emitted m m')) := by
  obtain ⟨a, a', n, r, ex, v⟩ := h.view hp he
  rw [v.rest', v.opp', v.rest, v.em, v.ok.steps.survive (v.known.inv.nodup _)]
  apply List.filterMap_congr
  intro x hx
  have := v.ex_ne hx
  unfold survivor
  rw [outsOf_append, fillsOf_append, outsOf_eq_nil this, fillsOf_eq_nil this, List.append_nil, List.append_nil]

/-- The own side after a new order: its old orders, without the evicted ones, plus the posted order. -/
theorem C48_own_side (h : Reachable m) (hp : (Instr.newOrder p).Ok) (he : m.newOrder p = .ok (s, m')) :
    match s.postedOrderId with
    | none => resting m' p.side = resting m p.side
    | some id => ∃ L R, (resting m p.side).filterMap (survivor (emitted m m')) = L ++ R ∧
        resting m' p.side = L ++ ⟨id, s.totalBaseQtyPosted, p.callbackInfo⟩ :: R := by
  obtain ⟨a, a', n, r, ex, v⟩ := h.view hp he
  rw [v.rest', v.rest]
  rcases v.post with ⟨hc, _⟩ | ⟨hc, _⟩ | ⟨kept, ev, hc, hex⟩
  · rw [hc.sum]; exact hc.own
  · rw [hc.sum]; exact hc.own
  · rw [hc.sum]
    simp only
    have hsv : (a.orders p.side).filterMap (survivor (emitted m m')) = kept := by
      have hk : ∀ (l : List (Order C)), (∀ x ∈ l, x ∈ a.orders p.side) → (∀ x ∈ l, ∀ e ∈ ex, e.id ≠ x.id) →
          l.filterMap (survivor (emitted m m')) = l := by
        intro l hl hne
        have : l.filterMap (survivor (emitted m m')) = l.filterMap some := by
          apply List.filterMap_congr
          intro x hx
          apply survivor_unnamed
          intro e he
          rw [v.em] at he
          rcases List.mem_append.1 he with he | he
          · exact v.ev_ne (hl x hx) e he
          · exact hne x hx e he
        rw [this, List.filterMap_some]
      rcases hc.evict with ⟨h1, h2, h3⟩ | ⟨w, h1, h2, _⟩
      · rw [h2]
        apply hk _ (fun x hx => hx)
        intro x hx e he
        rw [hex, h1] at he
        simp [evictEvents] at he
      · have hnd := v.known.inv.nodup p.side
        rw [h2, List.map_append, List.nodup_append] at hnd
        rw [h2, List.filterMap_append, hk]
        · have : survivor (emitted m m') w = none := by
            have : outsOf w.id (emitted m m') ≠ [] := by
              rw [v.em, hex, h1]
              simp [evictEvents, outsOf_out]
            simp [survivor, this]
          simp [this]
        · intro x hx; rw [h2]; exact List.mem_append_left _ hx
        · intro x hx e he heq
          rw [hex, h1] at he
          simp only [evictEvents, List.mem_singleton] at he
          rw [he] at heq
          exact hnd.2.2 x.id (List.mem_map_of_mem hx) w.id (by simp) heq.symm
    rw [hsv, hc.own]
    exact ⟨_, _, (List.takeWhile_append_dropWhile).symm, rfl⟩

/-- C08: exactly one out event for each order that leaves, none for those that stay. -/
theorem C08_departures (h : Reachable m) (hp : (Instr.newOrder p).Ok) (he : m.newOrder p = .ok (s, m'))
    (side : Side) {x : Order C} (hx : x ∈ resting m side) :
    sumBase (fillsOf x.id (emitted m m')) ≤ x.qty ∧
    ((∃ o ∈ resting m' side, o.id = x.id) → outsOf x.id (emitted m m') = []) ∧
    ((∀ o ∈ resting m' side, o.id ≠ x.id) → outsOf x.id (emitted m m') =
      [.out side x.id (x.qty - sumBase (fillsOf x.id (emitted m m'))) x.cb]) := by
  obtain ⟨a, a', n, r, ex, v⟩ := h.view hp he
  have hside : side = p.side.opposite ∨ side = p.side := by cases side <;> cases p.side <;> simp [Side.opposite]
  rcases hside with rfl | rfl
  · have hsv := C48_opposite_side h hp he
    rw [v.rest] at hx
    obtain ⟨h1, h2⟩ := v.ok.steps.outs (v.known.inv.nodup _) x hx
    have hne := v.ex_ne hx
    have e1 : outsOf x.id (emitted m m') = outsOf x.id r.events := by
      rw [v.em, outsOf_append, outsOf_eq_nil hne, List.append_nil]
    have e2 : fillsOf x.id (emitted m m') = fillsOf x.id r.events := by
      rw [v.em, fillsOf_append, fillsOf_eq_nil hne, List.append_nil]
    rw [e1, e2]
    refine ⟨h1, ?_, ?_⟩
    · rintro ⟨o, ho, hid⟩
      rw [hsv, List.mem_filterMap] at ho
      obtain ⟨z, hz, hs⟩ := ho
      unfold survivor at hs
      split at hs
      · rename_i hem
        cases hs
        simp only at hid
        rw [List.isEmpty_iff, hid, e1] at hem
        exact hem
      · cases hs
    · intro hno
      rcases h2 with h2 | h2
      · exfalso
        refine hno { x with qty := x.qty - sumBase (fillsOf x.id (emitted m m')) } ?_ rfl
        rw [hsv, List.mem_filterMap]
        refine ⟨x, by rw [v.rest]; exact hx, ?_⟩
        simp [survivor, e1, h2]
      · exact h2
  · rw [v.rest] at hx
    have hne := v.ev_ne hx
    have e1 : outsOf x.id (emitted m m') = outsOf x.id ex := by
      rw [v.em, outsOf_append, outsOf_eq_nil hne, List.nil_append]
    have e2 : fillsOf x.id (emitted m m') = [] := by
      rw [v.em, fillsOf_append, fillsOf_eq_nil hne, List.nil_append]
      unfold fillsOf
      rw [List.filter_eq_nil_iff]
      intro e he
      obtain ⟨w, _, rfl⟩ := v.ex_own e he
      simp [Event.isFill]
    rw [e1, e2]
    refine ⟨by simp, ?_⟩
    simp only [sumBase_nil, Nat.sub_zero]
    rw [v.rest']
    have stay : ex = [] → a'.orders p.side = a.orders p.side →
        ((∃ o ∈ a'.orders p.side, o.id = x.id) → outsOf x.id ex = []) ∧
        ((∀ o ∈ a'.orders p.side, o.id ≠ x.id) → outsOf x.id ex = [.out p.side x.id x.qty x.cb]) := by
      intro h1 h2
      rw [h1, h2]
      exact ⟨fun _ => rfl, fun hno => absurd rfl (hno x hx)⟩
    rcases v.post with ⟨hc, hex⟩ | ⟨hc, hex⟩ | ⟨kept, ev, hc, hex⟩
    · exact stay hex hc.own
    · exact stay hex hc.own
    · rw [hc.own]
      have hnew : x.id ≠ mkOrderId p.side p.limitPrice a.seq := by
        intro heq
        obtain ⟨k, hk, hid⟩ := (v.known.inv.ok p.side x hx).id
        have := (mkOrderId_inj (by have := v.known.inv.seq; omega) v.known.inv.seq (hid.symm.trans heq)).2
        omega
      rcases hc.evict with ⟨h1, h2, h3⟩ | ⟨w, h1, h2, _⟩
      · rw [hex, h1]
        refine ⟨fun _ => rfl, fun hno => ?_⟩
        exact absurd rfl (hno x (mem_insertOrder.2 (Or.inr (by rw [h2]; exact hx))))
      · have hnd := v.known.inv.nodup p.side
        rw [h2, List.map_append, List.nodup_append] at hnd
        rw [h2, List.mem_append, List.mem_singleton] at hx
        rw [hex, h1]
        simp only [evictEvents, outsOf_out, outsOf_nil]
        rcases hx with hx | rfl
        · have hwx : w.id ≠ x.id := fun heq => hnd.2.2 x.id (List.mem_map_of_mem hx) w.id (by simp) heq.symm
          rw [if_neg hwx]
          exact ⟨fun _ => rfl, fun hno => absurd rfl (hno x (mem_insertOrder.2 (Or.inr hx)))⟩
        · rw [if_pos rfl]
          refine ⟨?_, fun _ => rfl⟩
          rintro ⟨o, ho, hid⟩
          rcases mem_insertOrder.1 ho with rfl | ho
          · exact absurd hid.symm hnew
          · exact absurd hid (fun heq => hnd.2.2 o.id (List.mem_map_of_mem ho) x.id (by simp) heq)

/-- C08 and C09: every event is about an order that was resting, on the side the event says, and carries that
order's callback info; every fill carries the taker's. -/
theorem C09_callback_info (h : Reachable m) (hp : (Instr.newOrder p).Ok) (he : m.newOrder p = .ok (s, m'))
    {e : Event C} (hm : e ∈ emitted m m') :
    (∃ o ∈ resting m e.makerSide, o.id = e.id ∧ o.cb = e.makerCb) ∧
    (∀ ts id b q mc tc, e = .fill ts id b q mc tc → tc = p.callbackInfo) := by
  obtain ⟨a, a', n, r, ex, v⟩ := h.view hp he
  constructor
  · rw [v.em] at hm
    rcases List.mem_append.1 hm with hm | hm
    · obtain ⟨o, ho, h1, h2, h3⟩ := v.ok.steps.named e hm
      exact ⟨o, by rw [v.rest, h3]; exact ho, h1.symm, h2.symm⟩
    · obtain ⟨w, hw, rfl⟩ := v.ex_own e hm
      exact ⟨w, by rw [v.rest]; exact hw, rfl, rfl⟩
  · rintro ts id b q mc tc rfl
    obtain ⟨o, ho, t, heq, _⟩ := v.ok.steps.fill _ (v.mem_fill hm rfl) rfl
    simp only [Event.fill.injEq] at heq
    exact heq.2.2.2.2.2

/-- C48: an order no event names is unchanged. -/
theorem C48_unnamed_untouched (h : Reachable m) (hp : (Instr.newOrder p).Ok) (he : m.newOrder p = .ok (s, m'))
    (side : Side) {x : Order C} (hx : x ∈ resting m side) (hn : ∀ e ∈ emitted m m', e.id ≠ x.id) :
    x ∈ resting m' side := by
  have hside : side = p.side.opposite ∨ side = p.side := by cases side <;> cases p.side <;> simp [Side.opposite]
  rcases hside with rfl | rfl
  · rw [C48_opposite_side h hp he, List.mem_filterMap]
    exact ⟨x, hx, survivor_unnamed hn⟩
  · have := C48_own_side h hp he
    cases hs : s.postedOrderId with
    | none => rw [hs] at this; simp only at this; rw [this]; exact hx
    | some id =>
      rw [hs] at this
      obtain ⟨L, R, h1, h2⟩ := this
      have hmem : x ∈ L ++ R := by
        rw [← h1, List.mem_filterMap]
        exact ⟨x, hx, survivor_unnamed hn⟩
      rw [h2]
      rcases List.mem_append.1 hmem with hmem | hmem
      · exact List.mem_append_left _ hmem
      · exact List.mem_append_right _ (List.mem_cons_of_mem _ hmem)

/-- C48: nothing appears in the book except the posted order. -/
theorem C48_nothing_appears (h : Reachable m) (hp : (Instr.newOrder p).Ok) (he : m.newOrder p = .ok (s, m'))
    (side : Side) {y : Order C} (hy : y ∈ resting m' side) :
    (∃ x ∈ resting m side, x.id = y.id ∧ x.cb = y.cb ∧
      y.qty = x.qty - sumBase (fillsOf x.id (emitted m m'))) ∨
    (side = p.side ∧ s.postedOrderId = some y.id ∧ y.qty = s.totalBaseQtyPosted ∧ y.cb = p.callbackInfo) := by
  have surv : ∀ side, y ∈ (resting m side).filterMap (survivor (emitted m m')) →
      ∃ x ∈ resting m side, x.id = y.id ∧ x.cb = y.cb ∧
        y.qty = x.qty - sumBase (fillsOf x.id (emitted m m')) := by
    intro side hy
    rw [List.mem_filterMap] at hy
    obtain ⟨x, hx, hs⟩ := hy
    unfold survivor at hs
    split at hs
    · cases hs
      exact ⟨x, hx, rfl, rfl, rfl⟩
    · cases hs
  have hside : side = p.side.opposite ∨ side = p.side := by cases side <;> cases p.side <;> simp [Side.opposite]
  rcases hside with rfl | rfl
  · rw [C48_opposite_side h hp he] at hy
    exact Or.inl (surv _ hy)
  · have := C48_own_side h hp he
    cases hs : s.postedOrderId with
    | none =>
      rw [hs] at this; simp only at this; rw [this] at hy
      have hd := (C08_departures h hp he p.side hy).2.1 ⟨y, by rw [this]; exact hy, rfl⟩
      left
      obtain ⟨a, a', n, r, ex, v⟩ := h.view hp he
      refine ⟨y, hy, rfl, rfl, ?_⟩
      have hne := v.ev_ne (by rw [v.rest] at hy; exact hy)
      have e2 : fillsOf y.id (emitted m m') = [] := by
        rw [v.em, fillsOf_append, fillsOf_eq_nil hne, List.nil_append]
        unfold fillsOf
        rw [List.filter_eq_nil_iff]
        intro e he
        obtain ⟨w, _, rfl⟩ := v.ex_own e he
        simp [Event.isFill]
      rw [e2]; simp
    | some id =>
      rw [hs] at this
      obtain ⟨L, R, h1, h2⟩ := this
      rw [h2, List.mem_append, List.mem_cons] at hy
      rcases hy with hy | rfl | hy
      · exact Or.inl (surv _ (by rw [h1]; exact List.mem_append_left _ hy))
      · exact Or.inr ⟨rfl, rfl, rfl, rfl⟩
      · exact Or.inl (surv _ (by rw [h1]; exact List.mem_append_right _ hy))

/-- C13: at most `match_limit` opposite orders are touched and at most `2 * match_limit + 1` events emitted. -/
theorem C13_match_limit (h : Reachable m) (hp : (Instr.newOrder p).Ok) (he : m.newOrder p = .ok (s, m')) :
    ((resting m p.side.opposite).filter
      (fun x => (emitted m m').any (fun e => e.id == x.id))).length ≤ p.matchLimit ∧
    (emitted m m').length ≤ 2 * p.matchLimit + 1 := by
  obtain ⟨a, a', n, r, ex, v⟩ := h.view hp he
  constructor
  · rw [v.rest]
    refine le_trans (le_of_eq ?_) (le_trans (v.ok.steps.touched (v.known.inv.nodup _)) v.ok.limit)
    congr 1
    apply List.filter_congr
    intro x hx
    rw [v.em, List.any_append]
    have : ex.any (fun e => e.id == x.id) = false := by
      rw [List.any_eq_false]
      intro e he
      simp [v.ex_ne hx e he]
    rw [this, Bool.or_false]
  · rw [v.em, List.length_append]
    have h1 := v.ok.steps.events_length
    have h2 := v.ok.limit
    have h3 : ex.length ≤ 1 := by
      rcases v.post with ⟨_, hex⟩ | ⟨_, hex⟩ | ⟨kept, ev, _, hex⟩
      · simp [hex]
      · simp [hex]
      · rw [hex]; cases ev <;> simp [evictEvents]
    omega

/-- C14: a post-only order never trades and never removes an opposite order. -/
theorem C14_post_only (h : Reachable m) (hp : (Instr.newOrder p).Ok) (he : m.newOrder p = .ok (s, m'))
    (hpo : p.postOnly = true) :
    fills (emitted m m') = [] ∧ resting m' p.side.opposite = resting m p.side.opposite := by
  obtain ⟨a, a', n, r, ex, v⟩ := h.view hp he
  obtain ⟨_, h1, h2, _⟩ := v.ok.steps.stuck (fun x rest _ ht => by
    have := ht.noPostOnly; rw [hpo] at this; cases this)
  rw [v.fills, v.rest', v.opp', v.rest, h1, h2]
  exact ⟨rfl, rfl⟩

/-- C14: an order that may not be posted is not. -/
theorem C14_no_post (h : Reachable m) (hp : (Instr.newOrder p).Ok) (he : m.newOrder p = .ok (s, m'))
    (hpa : p.postAllowed = false) :
    s.postedOrderId = none ∧ s.totalBaseQtyPosted = 0 ∧ resting m' p.side = resting m p.side := by
  obtain ⟨a, a', n, r, ex, v⟩ := h.view hp he
  rw [v.rest', v.rest]
  rcases v.post with ⟨hc, _⟩ | ⟨hc, _⟩ | ⟨kept, ev, hc, _⟩
  · rw [hc.sum]; exact ⟨rfl, rfl, hc.own⟩
  · have := hc.tried.allowed; rw [hpa] at this; cases this
  · have := hc.tried.allowed; rw [hpa] at this; cases this

/-- C16: no fill between orders of the same callback id, unless `DecrementTake` is asked for. -/
theorem C16_no_self_trade (h : Reachable m) (hp : (Instr.newOrder p).Ok) (he : m.newOrder p = .ok (s, m'))
    (hb : p.selfTradeBehavior ≠ .decrementTake) {e : Event C} (hm : e ∈ emitted m m') (hf : e.isFill = true) :
    CallbackInfo.asCallbackId p.callbackInfo ≠ CallbackInfo.asCallbackId e.makerCb := by
  obtain ⟨a, a', n, r, ex, v⟩ := h.view hp he
  obtain ⟨o, ho, t, rfl, _, _, _, _, hs, _⟩ := v.ok.steps.fill e (v.mem_fill hm hf) hf
  exact fun heq => hs ⟨hb, heq⟩

/-- C16: with `CancelProvide`, an own resting order of the opposite side that is named by an event is removed,
its only event is an out event for its whole quantity, and it is not traded. -/
theorem C16_cancel_provide (h : Reachable m) (hp : (Instr.newOrder p).Ok) (he : m.newOrder p = .ok (s, m'))
    (hb : p.selfTradeBehavior = .cancelProvide) {x : Order C} (hx : x ∈ resting m p.side.opposite)
    (hid : CallbackInfo.asCallbackId p.callbackInfo = CallbackInfo.asCallbackId x.cb)
    (hn : ∃ e ∈ emitted m m', e.id = x.id) :
    (emitted m m').filter (fun e => e.id == x.id) = [.out p.side.opposite x.id x.qty x.cb] ∧
    ∀ o ∈ resting m' p.side.opposite, o.id ≠ x.id := by
  obtain ⟨h1, h2, h3⟩ := C08_departures h hp he p.side.opposite hx
  have hnofill : fillsOf x.id (emitted m m') = [] := by
    unfold fillsOf
    rw [List.filter_eq_nil_iff]
    intro e hm hc
    rw [Bool.and_eq_true, beq_iff_eq] at hc
    refine C16_no_self_trade h hp he (by rw [hb]; decide) hm hc.1 ?_
    obtain ⟨⟨o, ho, ho1, ho2⟩, _⟩ := C09_callback_info h hp he hm
    have hside := (C03_limit_respected h hp he hm hc.1).1
    rw [hside] at ho
    obtain ⟨a, a', n, r, ex, v⟩ := h.view hp he
    have : o = x := by
      rw [v.rest] at ho hx
      have hnd := v.known.inv.nodup p.side.opposite
      exact List.inj_on_of_nodup_map hnd ho hx (ho1.trans hc.2)
    rw [hid, ← ho2, this]
  have hall : (emitted m m').filter (fun e => e.id == x.id) = outsOf x.id (emitted m m') := by
    unfold outsOf
    apply List.filter_congr
    intro e hm
    cases e with
    | out => simp [Event.isOut]
    | fill ts id b q mc tc =>
      have : id ≠ x.id := by
        rintro rfl
        have : Event.fill ts x.id b q mc tc ∈ fillsOf x.id (emitted m m') := by
          unfold fillsOf
          rw [List.mem_filter]
          exact ⟨hm, by simp [Event.isFill, Event.id]⟩
        rw [hnofill] at this
        cases this
      simp [Event.isOut, Event.id, this]
  have hne : outsOf x.id (emitted m m') ≠ [] := by
    rw [← hall]
    obtain ⟨e, he, hid⟩ := hn
    exact List.ne_nil_of_mem (List.mem_filter.2 ⟨he, by simp [hid]⟩)
  have hgone : ∀ o ∈ resting m' p.side.opposite, o.id ≠ x.id := by
    intro o ho hid
    exact hne (h2 ⟨o, ho, hid⟩)
  refine ⟨?_, hgone⟩
  rw [hall, h3 hgone, hnofill]
  simp

/-- C53: each trade is as large as the resting order, the base still wanted and the quote still allowed
permit. -/
theorem C53_fill_maximal (h : Reachable m) (hp : (Instr.newOrder p).Ok) (he : m.newOrder p = .ok (s, m'))
    {es1 es2 : List (Event C)} {ts : Side} {id base quote : Nat} {mc tc : C}
    (hm : emitted m m' = es1 ++ .fill ts id base quote mc tc :: es2) :
    ∃ x ∈ resting m p.side.opposite, x.id = id ∧
      base = min (min (x.qty - sumBase (fillsOf id es1)) (p.maxBaseQty - sumBase (fills es1)))
        ((p.maxQuoteQty - sumQuote (fills es1)) * 2 ^ 32 / x.price) := by
  obtain ⟨a, a', n, r, ex, v⟩ := h.view hp he
  rw [v.em] at hm
  have : ∃ es3, r.events = es1 ++ .fill ts id base quote mc tc :: es3 := by
    rcases List.append_eq_append_iff.1 hm with ⟨l, h1, h2⟩ | ⟨l, h1, h2⟩
    · exfalso
      have : Event.fill ts id base quote mc tc ∈ ex := by rw [h2]; simp
      obtain ⟨w, _, hw⟩ := v.ex_own _ this
      cases hw
    · cases l with
      | nil =>
        exfalso
        have : Event.fill ts id base quote mc tc ∈ ex := by
          rw [List.nil_append] at h2; rw [← h2]; simp
        obtain ⟨w, _, hw⟩ := v.ex_own _ this
        cases hw
      | cons e l =>
        simp only [List.cons_append, List.cons.injEq] at h2
        exact ⟨l, by rw [h1, ← h2.1]⟩
  obtain ⟨es3, h3⟩ := this
  obtain ⟨x, hx, h4, h5⟩ := v.ok.steps.maximal (v.known.inv.nodup _) es1 ts id base quote mc tc es3 h3
  exact ⟨x, by rw [v.rest]; exact hx, h4, h5⟩

/-- C49, one step: a successful new order only appends to the queue. -/
theorem C49_appended (h : Reachable m) (hp : (Instr.newOrder p).Ok) (he : m.newOrder p = .ok (s, m')) :
    pending m' = pending m ++ emitted m m' := by
  obtain ⟨a, a', n, r, ex, v⟩ := h.view hp he
  rw [v.pend', v.em, v.pend]

/-! ### A concrete case

User 3 buys 14 at 11 in the demo market: a fill with user 1, the own ask cancelled, a fill with user 2, the
remainder posted and the worst bid evicted. -/

theorem demo_asks : resting demo .ask =
    [⟨10 * 2 ^ 96, 5, ⟨1, 7⟩⟩] ++ ⟨10 * 2 ^ 96 + 2, 7, ⟨3, 7⟩⟩ :: [⟨11 * 2 ^ 96 + 1, 6, ⟨2, 7⟩⟩] := by decide +kernel

theorem demo_emitted : emitted demo demoAfter =
    [.fill .bid (10 * 2 ^ 96) 5 50 ⟨1, 7⟩ ⟨3, 7⟩, .out .ask (10 * 2 ^ 96) 0 ⟨1, 7⟩,
     .out .ask (10 * 2 ^ 96 + 2) 7 ⟨3, 7⟩] ++
    .fill .bid (11 * 2 ^ 96 + 1) 6 66 ⟨2, 7⟩ ⟨3, 7⟩ ::
    [.out .ask (11 * 2 ^ 96 + 1) 0 ⟨2, 7⟩, .out .bid (8 * 2 ^ 96 + (2 ^ 64 - 1 - 4)) 3 ⟨5, 7⟩] := by decide +kernel

example := C02_rank_is_price demo_reachable .bid
example := C02_priority demo_reachable demoTake_ok demo_take
  (x := ⟨10 * 2 ^ 96, 5, ⟨1, 7⟩⟩) (y := ⟨11 * 2 ^ 96 + 1, 6, ⟨2, 7⟩⟩) (by decide +kernel) (by decide +kernel)
example := C03_limit_respected demo_reachable demoTake_ok demo_take
  (e := .fill .bid (11 * 2 ^ 96 + 1) 6 66 ⟨2, 7⟩ ⟨3, 7⟩) (by decide +kernel) rfl
example := C04_caps demo_reachable demoTake_ok demo_take
example := C05_summary demo_reachable demoTake_ok demo_take
example := C06_fill_value demo_reachable demoTake_ok demo_take
  (ts := .bid) (id := 11 * 2 ^ 96 + 1) (base := 6) (quote := 66) (mc := ⟨2, 7⟩) (tc := ⟨3, 7⟩) (by decide +kernel)
example := C50_rounding demo_reachable demoTake_ok demo_take
  (ts := .bid) (id := 11 * 2 ^ 96 + 1) (base := 6) (quote := 66) (mc := ⟨2, 7⟩) (tc := ⟨3, 7⟩) (by decide +kernel)
example := C50_total demo_reachable demoTake_ok demo_take rfl
example := C48_opposite_side demo_reachable demoTake_ok demo_take
example := C48_own_side demo_reachable demoTake_ok demo_take
example := C08_departures demo_reachable demoTake_ok demo_take .ask (x := ⟨10 * 2 ^ 96 + 2, 7, ⟨3, 7⟩⟩)
  (by decide +kernel)
example := C09_callback_info demo_reachable demoTake_ok demo_take
  (e := .out .bid (8 * 2 ^ 96 + (2 ^ 64 - 1 - 4)) 3 ⟨5, 7⟩) (by decide +kernel)
example := C48_unnamed_untouched demo_reachable demoTake_ok demo_take .bid
  (x := ⟨9 * 2 ^ 96 + (2 ^ 64 - 1 - 3), 8, ⟨4, 7⟩⟩) (by decide +kernel) (by decide +kernel)
example := C48_nothing_appears demo_reachable demoTake_ok demo_take .bid
  (y := ⟨11 * 2 ^ 96 + (2 ^ 64 - 1 - 6), 3, ⟨3, 7⟩⟩) (by decide +kernel)
example := C13_match_limit demo_reachable demoTake_ok demo_take
example := C16_no_self_trade demo_reachable demoTake_ok demo_take (by decide)
  (e := .fill .bid (11 * 2 ^ 96 + 1) 6 66 ⟨2, 7⟩ ⟨3, 7⟩) (by decide +kernel) rfl
example := C16_cancel_provide demo_reachable demoTake_ok demo_take rfl (x := ⟨10 * 2 ^ 96 + 2, 7, ⟨3, 7⟩⟩)
  (by decide +kernel) rfl (by decide +kernel)
example := C53_fill_maximal demo_reachable demoTake_ok demo_take demo_emitted
example := C49_appended demo_reachable demoTake_ok demo_take

/-- A post-only variant of the same order: it crosses, so nothing happens. -/
def demoPostOnly : NewOrderParams DemoCb := { demoTake with postOnly := true }
theorem demoPostOnly_take : demo.newOrder demoPostOnly =
    .ok (⟨none, 0, 0, 0⟩, demo.step (.newOrder demoPostOnly)) := by decide +kernel
example := C14_post_only demo_reachable (p := demoPostOnly) demoTake_ok demoPostOnly_take rfl

/-- An immediate-or-cancel variant: the remainder is dropped. -/
def demoNoPost : NewOrderParams DemoCb := { demoTake with postAllowed := false }
theorem demoNoPost_take : demo.newOrder demoNoPost =
    .ok (⟨none, 11, 116, 0⟩, demo.step (.newOrder demoNoPost)) := by decide +kernel
example := C14_no_post demo_reachable (p := demoNoPost) demoTake_ok demoNoPost_take rfl

end AOB
