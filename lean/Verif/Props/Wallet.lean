import Verif.Spec.Wallet
import Verif.Props.Custody
/-
Wallets (C100): every group of users has exactly what it traded.
-/
namespace AOB
variable {C : Type}

/-! ### Sums -/

section
variable (g : C → Bool)

@[simp] theorem ordersOf_nil : ordersOf g [] = [] := rfl
theorem ordersOf_cons (o : Order C) (l : List (Order C)) :
    ordersOf g (o :: l) = if g o.cb then o :: ordersOf g l else ordersOf g l := by
  unfold ordersOf; rw [List.filter_cons]
theorem ordersOf_append (a b : List (Order C)) : ordersOf g (a ++ b) = ordersOf g a ++ ordersOf g b := by simp [ordersOf]
@[simp] theorem buysOf_nil : buysOf g [] = [] := rfl
@[simp] theorem sellsOf_nil : sellsOf g [] = [] := rfl
@[simp] theorem outsTo_nil : outsTo g [] = [] := rfl
theorem buysOf_append (a b : List (Event C)) : buysOf g (a ++ b) = buysOf g a ++ buysOf g b := by simp [buysOf]
theorem sellsOf_append (a b : List (Event C)) : sellsOf g (a ++ b) = sellsOf g a ++ sellsOf g b := by simp [sellsOf]
theorem outsTo_append (a b : List (Event C)) : outsTo g (a ++ b) = outsTo g a ++ outsTo g b := by
  unfold outsTo; exact List.filter_append ..
theorem baseTo_append (a b : List (Event C)) : baseTo g (a ++ b) = baseTo g a + baseTo g b := by
  unfold baseTo; rw [buysOf_append, outsTo_append, sumBase_append, baseDue_append]; omega
theorem quoteTo_append (a b : List (Event C)) : quoteTo g (a ++ b) = quoteTo g a + quoteTo g b := by
  unfold quoteTo; rw [sellsOf_append, outsTo_append, sumQuote_append, quoteDue_append]; omega

theorem buysOf_out (side : Side) (id b : Nat) (cb : C) (es : List (Event C)) :
    buysOf g (.out side id b cb :: es) = buysOf g es := rfl
theorem sellsOf_out (side : Side) (id b : Nat) (cb : C) (es : List (Event C)) :
    sellsOf g (.out side id b cb :: es) = sellsOf g es := rfl
theorem outsTo_out (side : Side) (id b : Nat) (cb : C) (es : List (Event C)) :
    outsTo g (.out side id b cb :: es) = if g cb then .out side id b cb :: outsTo g es else outsTo g es := by
  unfold outsTo; rw [List.filter_cons]
theorem outsTo_fill (ts : Side) (id b q : Nat) (mk tk : C) (es : List (Event C)) :
    outsTo g (.fill ts id b q mk tk :: es) = outsTo g es := rfl
theorem buysOf_fill (ts : Side) (id b q : Nat) (mk tk : C) (es : List (Event C)) :
    buysOf g (.fill ts id b q mk tk :: es) =
      if g (match ts with | .bid => tk | .ask => mk) then .fill ts id b q mk tk :: buysOf g es else buysOf g es := by
  unfold buysOf; rw [List.filter_cons]; cases ts <;> rfl
theorem sellsOf_fill (ts : Side) (id b q : Nat) (mk tk : C) (es : List (Event C)) :
    sellsOf g (.fill ts id b q mk tk :: es) =
      if g (match ts with | .bid => mk | .ask => tk) then .fill ts id b q mk tk :: sellsOf g es else sellsOf g es := by
  unfold sellsOf; rw [List.filter_cons]; cases ts <;> rfl

/-- Fills of resting bids of the group. -/
def bidFills (es : List (Event C)) : List (Event C) :=
  es.filter fun | .fill .ask _ _ _ maker _ => g maker | _ => false
@[simp] theorem bidFills_nil : bidFills g [] = [] := rfl
theorem bidFills_append (a b : List (Event C)) : bidFills g (a ++ b) = bidFills g a ++ bidFills g b := by
  unfold bidFills; exact List.filter_append ..
theorem bidFills_out (side : Side) (id b : Nat) (cb : C) (es : List (Event C)) :
    bidFills g (.out side id b cb :: es) = bidFills g es := rfl
theorem bidFills_fill (ts : Side) (id b q : Nat) (mk tk : C) (es : List (Event C)) :
    bidFills g (.fill ts id b q mk tk :: es) =
      if ts = .ask ∧ g mk = true then .fill ts id b q mk tk :: bidFills g es else bidFills g es := by
  unfold bidFills; rw [List.filter_cons]; cases ts <;> simp

end

variable [CallbackInfo C] {p : NewOrderParams C} {minBase : Nat}

/-! ### Matching -/

/-- A buyer takes base out of the asks of the group: it is sold or announced as rest. -/
theorem Steps.group_bid (g : C → Bool) (hb : p.side = .bid) {n opp b q es opp' b' q'}
    (h : Steps p minBase n opp b q es opp' b' q') :
    sumQty (ordersOf g opp) = sumQty (ordersOf g opp') + baseDue (outsTo g es) + sumBase (sellsOf g es) ∧
    quoteDue (outsTo g es) = 0 ∧ bidFills g es = [] ∧
    (if g p.callbackInfo then sumBase (buysOf g es) = sumBase (fills es) ∧ sumQuote (buysOf g es) = sumQuote (fills es)
      else buysOf g es = []) := by
  have hopp : p.side.opposite = .ask := by rw [hb]; rfl
  induction h with
  | refl => simp
  | @selfOut n o rest b q es opp' b' q' _ _ _ _ ih =>
    rw [hopp, ordersOf_cons, outsTo_out, buysOf_out, sellsOf_out, bidFills_out, fills_out]
    refine ⟨?_, ?_, ih.2.2⟩
    · split <;> (try simp only [sumQty_cons, baseDue_cons, Event.baseDue]) <;> omega
    · split <;> (try simp only [quoteDue_cons, Event.quoteDue]) <;> omega
  | @fillOut n o rest b q es opp' b' q' _ _ _ _ ih =>
    have h1 := (tradeQty_le (o := o) (b := b) (q := q)).1
    generalize tradeQty o b q = t at *
    generalize worth p.side t o.price = w at *
    rw [hopp, hb, ordersOf_cons, outsTo_fill, outsTo_out, buysOf_fill, buysOf_out, sellsOf_fill, sellsOf_out, bidFills_fill,
      bidFills_out, fills_fill, fills_out]
    obtain ⟨i1, i2, i3, i4⟩ := ih
    refine ⟨?_, ?_, by simpa using i3, ?_⟩
    · simp only
      split <;> (try simp only [sumQty_cons, baseDue_cons, sumBase_cons, Event.base, Event.baseDue]) <;> omega
    · split <;> (try simp only [quoteDue_cons, Event.quoteDue]) <;> omega
    · simp only
      split at i4
      · rename_i hg
        rw [if_pos hg, if_pos hg]
        simp only [sumBase_cons, sumQuote_cons, Event.base, Event.quote]
        omega
      · rename_i hg
        rw [if_neg hg, if_neg hg]
        exact i4
  | @fillKeep n o rest b q es opp' b' q' _ _ _ _ ih =>
    have h1 := (tradeQty_le (o := o) (b := b) (q := q)).1
    generalize tradeQty o b q = t at *
    generalize worth p.side t o.price = w at *
    rw [hb, ordersOf_cons, outsTo_fill, buysOf_fill, sellsOf_fill, bidFills_fill, fills_fill]
    obtain ⟨i1, i2, i3, i4⟩ := ih
    refine ⟨?_, i2, by simpa using i3, ?_⟩
    · rw [ordersOf_cons] at i1
      cases hg : g o.cb <;> simp only [hg, true_and, and_true, and_false, if_true, if_false, Bool.false_eq_true, sumQty_cons, sumBase_cons, Event.base] at i1 ⊢ <;> omega
    · simp only
      split at i4
      · rename_i hg
        rw [if_pos hg, if_pos hg]
        simp only [sumBase_cons, sumQuote_cons, Event.base, Event.quote]
        omega
      · rename_i hg
        rw [if_neg hg, if_neg hg]
        exact i4

/-- A seller takes value out of the bids of the group: it is paid or announced as rest, but for the roundings. -/
theorem Steps.group_ask (g : C → Bool) (ha : p.side = .ask) {n opp b q es opp' b' q'}
    (h : Steps p minBase n opp b q es opp' b' q') :
    sumValue (ordersOf g opp') + quoteDue (outsTo g es) + sumQuote (buysOf g es) ≤ sumValue (ordersOf g opp) ∧
    sumValue (ordersOf g opp) ≤
      sumValue (ordersOf g opp') + quoteDue (outsTo g es) + sumQuote (buysOf g es) + (bidFills g es).length ∧
    baseDue (outsTo g es) = 0 ∧
    (if g p.callbackInfo then sumBase (sellsOf g es) = sumBase (fills es) ∧ sumQuote (sellsOf g es) = sumQuote (fills es)
      else sellsOf g es = []) := by
  have split' : ∀ (o : Order C) (t : Nat), t ≤ o.qty →
      t * o.price / 2 ^ 32 + (o.qty - t) * o.price / 2 ^ 32 ≤ o.value ∧
      o.value ≤ t * o.price / 2 ^ 32 + (o.qty - t) * o.price / 2 ^ 32 + 1 := by
    intro o t ht
    have := floor_split (t * o.price) ((o.qty - t) * o.price)
    rw [← Nat.add_mul, show t + (o.qty - t) = o.qty by omega] at this
    exact this
  have hopp : p.side.opposite = .bid := by rw [ha]; rfl
  have hw : ∀ t x, worth p.side t x = t * x / 2 ^ 32 := fun t x => by rw [ha]; rfl
  induction h with
  | refl => simp
  | @selfOut n o rest b q es opp' b' q' _ _ _ _ ih =>
    rw [hopp, ordersOf_cons, outsTo_out, buysOf_out, sellsOf_out, bidFills_out, fills_out]
    obtain ⟨i1, i2, i3, i4⟩ := ih
    refine ⟨?_, ?_, ?_, i4⟩ <;> split <;>
      (try simp only [sumValue_cons, quoteDue_cons, baseDue_cons, Event.quoteDue, Event.baseDue, Order.value, Order.price]) <;> omega
  | @fillOut n o rest b q es opp' b' q' _ _ _ _ ih =>
    have h1 := split' o _ (tradeQty_le (o := o) (b := b) (q := q)).1
    generalize tradeQty o b q = t at *
    rw [hw] at *
    rw [hopp, ha, ordersOf_cons, outsTo_fill, outsTo_out, buysOf_fill, buysOf_out, sellsOf_fill, sellsOf_out, bidFills_fill,
      bidFills_out, fills_fill, fills_out]
    obtain ⟨i1, i2, i3, i4⟩ := ih
    refine ⟨?_, ?_, ?_, ?_⟩
    · simp only
      split <;> (try simp only [sumValue_cons, quoteDue_cons, sumQuote_cons, Event.quote, Event.quoteDue,
        show o.id / 2 ^ 64 = o.price from rfl]) <;> omega
    · simp only [true_and]
      split <;> (try simp only [sumValue_cons, quoteDue_cons, sumQuote_cons, Event.quote, Event.quoteDue, List.length_cons,
        show o.id / 2 ^ 64 = o.price from rfl]) <;> omega
    · split <;> (try simp only [baseDue_cons, Event.baseDue]) <;> omega
    · simp only
      split at i4
      · rename_i hg
        rw [if_pos hg, if_pos hg]
        simp only [sumBase_cons, sumQuote_cons, Event.base, Event.quote]
        omega
      · rename_i hg
        rw [if_neg hg, if_neg hg]
        exact i4
  | @fillKeep n o rest b q es opp' b' q' _ _ _ _ ih =>
    have h1 := split' o _ (tradeQty_le (o := o) (b := b) (q := q)).1
    generalize tradeQty o b q = t at *
    rw [hw] at *
    have hv : Order.value { o with qty := o.qty - t } = (o.qty - t) * o.price / 2 ^ 32 := rfl
    rw [ha, ordersOf_cons, outsTo_fill, buysOf_fill, sellsOf_fill, bidFills_fill, fills_fill]
    obtain ⟨i1, i2, i3, i4⟩ := ih
    rw [ordersOf_cons] at i1 i2
    refine ⟨?_, ?_, i3, ?_⟩
    · cases hg : g o.cb <;> simp only [hg, true_and, and_true, and_false, if_true, if_false, Bool.false_eq_true, sumValue_cons, sumQuote_cons, Event.quote, hv] at i1 ⊢ <;> omega
    · cases hg : g o.cb <;> simp only [hg, true_and, and_true, and_false, if_true, if_false, Bool.false_eq_true, sumValue_cons, sumQuote_cons, Event.quote, hv, List.length_cons] at i2 ⊢ <;> omega
    · simp only
      split at i4
      · rename_i hg
        rw [if_pos hg, if_pos hg]
        simp only [sumBase_cons, sumQuote_cons, Event.base, Event.quote]
        omega
      · rename_i hg
        rw [if_neg hg, if_neg hg]
        exact i4

/-! ### One new order -/

variable {m m' : Market C} {s : OrderSummary}

omit [CallbackInfo C] in
theorem ordersOf_insert (g : C → Bool) (f : Order C → Nat) (side : Side) (o : Order C) (l : List (Order C)) :
    ((ordersOf g (insertOrder side o l)).map f).sum = (if g o.cb then f o else 0) + ((ordersOf g l).map f).sum := by
  have hs : ∀ l : List (Order C), ((ordersOf g l).map f).sum = (l.map fun o => if g o.cb then f o else 0).sum := by
    intro l
    induction l with
    | nil => rfl
    | cons a l ih =>
      rw [ordersOf_cons]
      split <;> simp_all
  rw [hs, hs, sum_insertOrder]

/-- What a new order does to the holdings of a group outside its wallets. -/
theorem group_new (g : C → Bool) {c is} (h : ReachBy c is m) (hlen : is.length < 2 ^ 63) (hp : (Instr.newOrder p).Ok)
    (he : m.newOrder p = .ok (s, m')) :
    outsideBase g m' + sumBase (sellsOf g (emitted m m')) = outsideBase g m + sumBase (buysOf g (emitted m m')) +
      (if p.side = .ask ∧ g p.callbackInfo = true then s.totalBaseQty else 0) ∧
    outsideQuote g m' + sumQuote (buysOf g (emitted m m')) ≤ outsideQuote g m + sumQuote (sellsOf g (emitted m m')) +
      (if p.side = .bid ∧ g p.callbackInfo = true then s.totalQuoteQty else 0) ∧
    outsideQuote g m + sumQuote (sellsOf g (emitted m m')) +
      (if p.side = .bid ∧ g p.callbackInfo = true then s.totalQuoteQty else 0) ≤
      outsideQuote g m' + sumQuote (buysOf g (emitted m m')) + (bidFills g (emitted m m')).length +
        (if p.side = .bid then (ordersOf g (postedBy p s)).length else 0) := by
  obtain ⟨a, a', n, r, ex, v, _, _, _, _, hseq⟩ := h.view hp he
  obtain ⟨s1, s2⟩ := C05_summary h.reachable hp he
  rw [v.fills] at s1 s2
  have hmin := v.ok.steps
  have hex : buysOf g ex = [] ∧ sellsOf g ex = [] ∧ bidFills g ex = [] := by
    have : ∀ e ∈ ex, ∃ i b cb, e = .out p.side i b cb := fun e he' => by
      obtain ⟨w, _, rfl⟩ := v.ex_own e he'; exact ⟨_, _, _, rfl⟩
    refine ⟨?_, ?_, ?_⟩
    all_goals
      first | unfold buysOf | unfold sellsOf | unfold bidFills
      rw [List.filter_eq_nil_iff]
      intro e he'
      obtain ⟨i, b, cb, rfl⟩ := this e he'
      simp [Event.buyer, Event.seller]
  have hpend : pending m' = pending m ++ (r.events ++ ex) := by rw [v.pend', v.pend]
  unfold outsideBase outsideQuote
  rw [hpend, v.em]
  simp only [baseTo_append, quoteTo_append, buysOf_append, sellsOf_append, bidFills_append, hex, List.append_nil]
  have hto : baseTo g ex = baseDue (outsTo g ex) ∧ quoteTo g ex = quoteDue (outsTo g ex) := by
    unfold baseTo quoteTo
    rw [hex.1, hex.2.1]
    exact ⟨Nat.zero_add _, Nat.zero_add _⟩
  rw [hto.1, hto.2]
  unfold baseTo quoteTo
  cases hs : p.side with
  | bid =>
    rw [hs] at s2
    obtain ⟨d1, d2, d3, d4⟩ := hmin.group_bid g hs
    have ropp : resting m .ask = a.orders .ask := v.rest .ask
    have ropp' : resting m' .ask = r.opp := by rw [v.rest' .ask]; have := v.ok.opp; rw [hs] at this; exact this
    have rown : resting m .bid = a.orders .bid := v.rest .bid
    have rown' : resting m' .bid = a'.orders .bid := v.rest' .bid
    rw [hs] at d1
    rw [ropp, ropp', rown, rown']
    simp only [Side.opposite] at d1
    have key : baseDue (outsTo g ex) = 0 ∧ sumValue (ordersOf g (a'.orders .bid)) + quoteDue (outsTo g ex) ≤
        sumValue (ordersOf g (a.orders .bid)) + (if g p.callbackInfo then
          (s.totalBaseQtyPosted * p.limitPrice + (2 ^ 32 - 1)) / 2 ^ 32 else 0) ∧
        sumValue (ordersOf g (a.orders .bid)) + (if g p.callbackInfo then
          (s.totalBaseQtyPosted * p.limitPrice + (2 ^ 32 - 1)) / 2 ^ 32 else 0) ≤
          sumValue (ordersOf g (a'.orders .bid)) + quoteDue (outsTo g ex) + (ordersOf g (postedBy p s)).length := by
      rcases v.post with ⟨hc, hx⟩ | ⟨hc, hx⟩ | ⟨kept, ev, hc, hx⟩
      · have ho := hc.own
        rw [hs] at ho
        rw [hx, ho, hc.sum]; simp
      · have ho := hc.own
        rw [hs] at ho
        rw [hx, ho, hc.sum]; simp
      · have ho := hc.own
        rw [hs] at ho
        rw [hx, ho, hc.sum]
        simp only [postedBy]
        generalize min (affordable r.quote p.limitPrice) r.base = t
        have hval : Order.value (⟨mkOrderId .bid p.limitPrice a.seq, t, p.callbackInfo⟩ : Order C) =
            t * p.limitPrice / 2 ^ 32 := by
          unfold Order.value Order.price
          simp only
          rw [mkOrderId_price (by omega)]
        have hins := ordersOf_insert g Order.value .bid
          (⟨mkOrderId .bid p.limitPrice a.seq, t, p.callbackInfo⟩ : Order C) kept
        rw [hval] at hins
        unfold sumValue
        rw [hins, ordersOf_cons]
        rcases hc.evict with ⟨e1, e2, _⟩ | ⟨w, e1, e2, _⟩
        · rw [e1, e2, hs]
          simp only [evictEvents, outsTo_nil, quoteDue_nil, baseDue_nil, ordersOf_nil]
          split
          · rw [List.length_singleton]
            exact ⟨trivial, by omega, by omega⟩
          · exact ⟨trivial, by omega, by omega⟩
        · rw [hs] at e2
          rw [e1, e2, hs]
          simp only [evictEvents, outsTo_out, ordersOf_append, ordersOf_cons, ordersOf_nil, outsTo_nil]
          have hw : w.value = w.qty * (w.id / 2 ^ 64) / 2 ^ 32 := rfl
          cases hg : g p.callbackInfo <;> cases hgw : g w.cb <;>
            simp only [if_true, if_false, Bool.false_eq_true, quoteDue_cons, baseDue_cons, quoteDue_nil, baseDue_nil,
              Event.baseDue, Event.quoteDue, List.map_append, List.map_cons, List.map_nil, List.sum_append, List.sum_cons,
              List.sum_nil, ← hw, List.length_singleton, List.length_nil, Nat.add_zero, Nat.zero_add, true_and] <;> omega
    cases hg : g p.callbackInfo <;>
      simp only [hg, if_true, if_false, Bool.false_eq_true, and_false, and_true, reduceCtorEq, d3, List.length_nil] at d4 key ⊢
    · rw [d4]
      simp only [sumBase_nil, sumQuote_nil]
      omega
    · simp only at s2
      omega
  | ask =>
    obtain ⟨d1, d2, d3, d4⟩ := hmin.group_ask g hs
    have ropp : resting m .bid = a.orders .bid := v.rest .bid
    have ropp' : resting m' .bid = r.opp := by rw [v.rest' .bid]; have := v.ok.opp; rw [hs] at this; exact this
    have rown : resting m .ask = a.orders .ask := v.rest .ask
    have rown' : resting m' .ask = a'.orders .ask := v.rest' .ask
    rw [hs] at d1 d2
    rw [ropp, ropp', rown, rown']
    simp only [Side.opposite] at d1 d2
    have key : quoteDue (outsTo g ex) = 0 ∧ sumQty (ordersOf g (a'.orders .ask)) + baseDue (outsTo g ex) =
        sumQty (ordersOf g (a.orders .ask)) + (if g p.callbackInfo then s.totalBaseQtyPosted else 0) := by
      rcases v.post with ⟨hc, hx⟩ | ⟨hc, hx⟩ | ⟨kept, ev, hc, hx⟩
      · have ho := hc.own
        rw [hs] at ho
        rw [hx, ho, hc.sum]; simp
      · have ho := hc.own
        rw [hs] at ho
        rw [hx, ho, hc.sum]; simp
      · have ho := hc.own
        rw [hs] at ho
        rw [hx, ho, hc.sum]
        simp only
        generalize min (affordable r.quote p.limitPrice) r.base = t
        have hins := ordersOf_insert g Order.qty .ask
          (⟨mkOrderId .ask p.limitPrice a.seq, t, p.callbackInfo⟩ : Order C) kept
        unfold sumQty
        rw [hins]
        rcases hc.evict with ⟨e1, e2, _⟩ | ⟨w, e1, e2, _⟩
        · rw [e1, e2, hs]
          simp only [evictEvents, outsTo_nil, quoteDue_nil, baseDue_nil]
          exact ⟨trivial, by omega⟩
        · rw [hs] at e2
          rw [e1, e2, hs]
          simp only [evictEvents, outsTo_out, ordersOf_append, ordersOf_cons, ordersOf_nil, outsTo_nil]
          cases hg : g p.callbackInfo <;> cases hgw : g w.cb <;>
            simp only [if_true, if_false, Bool.false_eq_true, quoteDue_cons, baseDue_cons, quoteDue_nil, baseDue_nil,
              Event.baseDue, Event.quoteDue, List.map_append, List.map_cons, List.map_nil, List.sum_append, List.sum_cons,
              List.sum_nil, Nat.add_zero, Nat.zero_add, true_and] <;> omega
    cases hg : g p.callbackInfo <;>
      simp only [hg, if_true, if_false, Bool.false_eq_true, and_false, and_true, reduceCtorEq] at d4 key ⊢
    · rw [d4]
      simp only [sumBase_nil, sumQuote_nil]
      omega
    · omega

/-! ### Histories -/

/-- What a group holds, in its wallets, on the book and in the event queue, is what it traded. -/
structure Settled (g : C → Bool) (m : Market C) (v : Vault) (L : Log C) : Prop where
  base : v.base + outsideBase g m = (sumBase (buysOf g L.events) : Int) - sumBase (sellsOf g L.events)
  quote_le : v.quote + outsideQuote g m ≤ (sumQuote (sellsOf g L.events) : Int) - sumQuote (buysOf g L.events)
  quote_ge : (sumQuote (sellsOf g L.events) : Int) - sumQuote (buysOf g L.events) ≤
    v.quote + outsideQuote g m + roundingsOf g L

omit [CallbackInfo C] in
theorem roundingsOf_append (g : C → Bool) (a b : Log C) :
    roundingsOf g (a.append b) = roundingsOf g a + roundingsOf g b := by
  unfold roundingsOf Log.append
  simp only [ordersOf_append, List.filter_append, List.length_append]
  omega

theorem Settled.step (g : C → Bool) {c is} (hr : ReachBy c is m) (hlen : is.length < 2 ^ 63) {i : Instr C} (hi : i.Ok)
    {v : Vault} {L : Log C} (h : Settled g m v L) :
    Settled g (m.step i) (settleFor g m v i) (L.append (stepLog m i)) := by
  obtain ⟨h1, h2, h3⟩ := h
  have hev : (L.append (stepLog m i)).events = L.events ++ (stepLog m i).events := rfl
  have err : ∀ {i : Instr C}, stepLog m i = {} → m.step i = m → settleFor g m v i = v →
      Settled g (m.step i) (settleFor g m v i) (L.append (stepLog m i)) := by
    intro i e1 e2 e3
    rw [e1, e2, e3]
    have : L.append {} = L := by unfold Log.append; simp
    rw [this]
    exact ⟨h1, h2, h3⟩
  have canc : ∀ {i : Instr C} {m' : Market C} (ids : List Nat), m.step i = m' → (stepLog m i).posted = [] →
      (stepLog m i).events = [] →
      (∀ side, resting m' side = (resting m side).filter (fun x => decide (x.id ∉ ids))) → pending m' = pending m →
      settleFor g m v i = { base := v.base + sumQty (ordersOf g ((resting m .ask).filter (fun o => decide (o.id ∈ ids))))
                            quote := v.quote + sumValue (ordersOf g ((resting m .bid).filter (fun o => decide (o.id ∈ ids)))) } →
      Settled g (m.step i) (settleFor g m v i) (L.append (stepLog m i)) := by
    intro i m' ids e1 e2 e3 e4 e5 e6
    have comm : ∀ (q : Order C → Bool) (l : List (Order C)), ordersOf g (l.filter q) = (ordersOf g l).filter q := by
      intro q l; unfold ordersOf; rw [List.filter_filter, List.filter_filter]; simp only [Bool.and_comm]
    have hR : roundingsOf g (L.append (stepLog m i)) = roundingsOf g L := by
      rw [roundingsOf_append]; unfold roundingsOf; rw [e2, e3]; rfl
    have hE : (L.append (stepLog m i)).events = L.events := by
      show L.events ++ (stepLog m i).events = _
      rw [e3, List.append_nil]
    have q1 := filter_split Order.qty (fun o : Order C => o.id ∈ ids) (ordersOf g (resting m .ask))
    have q2 := filter_split Order.value (fun o : Order C => o.id ∈ ids) (ordersOf g (resting m .bid))
    rw [e1, e6]
    unfold outsideBase outsideQuote at *
    refine ⟨?_, ?_, ?_⟩ <;> simp only [outsideBase, outsideQuote, hE, hR, e4, e5, comm, sumQty, sumValue] at * <;> omega
  cases i with
  | newOrder p =>
    cases he : m.newOrder p with
    | error e =>
      exact err (by simp only [stepLog, he]) (by simp only [Market.step, Market.exec, he]; rfl)
        (by simp only [settleFor, he])
    | ok x =>
      obtain ⟨s, m'⟩ := x
      have e1 : m.step (.newOrder p) = m' := by simp only [Market.step, Market.exec, he, ok_bind]
      have hlog : stepLog m (.newOrder p) = { posted := postedBy p s, events := emitted m m' } := by
        simp only [stepLog, he]
      obtain ⟨d1, d2, d3⟩ := group_new g hr hlen hi he
      have hpo : (ordersOf g (postedBy p s)).filter (fun o => sideOfId o.id == .bid) =
          if p.side = .bid then ordersOf g (postedBy p s) else [] := by
        unfold postedBy
        cases hid : s.postedOrderId with
        | none => cases p.side <;> rfl
        | some i =>
          obtain ⟨f1, _, f3⟩ := posted_id hr hi he hid
          have : sideOfId i = p.side := by rw [f1]; exact mkOrderId_side (by omega)
          rw [ordersOf_cons]
          cases hs : p.side <;> rw [hs] at this <;> split <;> simp [this]
      have hR : roundingsOf g (L.append (stepLog m (.newOrder p))) = roundingsOf g L +
          ((if p.side = .bid then (ordersOf g (postedBy p s)).length else 0) + (bidFills g (emitted m m')).length) := by
        rw [roundingsOf_append, hlog]
        congr 1
        show ((ordersOf g (postedBy p s)).filter _).length + (bidFills g (emitted m m')).length = _
        rw [hpo]
        split <;> rfl
      have hE : (L.append (stepLog m (.newOrder p))).events = L.events ++ emitted m m' := by rw [hlog]; rfl
      rw [e1]
      constructor <;> rw [hE] <;> (try rw [hR]) <;>
        simp only [buysOf_append, sellsOf_append, sumBase_append, sumQuote_append, settleFor, he] <;>
        cases hg : g p.callbackInfo <;> cases hs : p.side <;>
        simp only [hg, hs, if_true, if_false, Bool.false_eq_true, and_true, and_false, reduceCtorEq] at d1 d2 d3 ⊢ <;> omega
  | cancelOrder id =>
    cases he : m.cancelOrder id with
    | error e =>
      exact err (by simp only [stepLog, he]) (by simp only [Market.step, Market.exec, he]; rfl)
        (by simp only [settleFor, he])
    | ok x =>
      obtain ⟨s, m'⟩ := x
      obtain ⟨g1, g2, _⟩ := cancel_settles hr (by omega) he
      refine canc (m' := m') [id] (by simp only [Market.step, Market.exec, he, ok_bind]) (by simp only [stepLog, he])
        (by simp only [stepLog, he]) g1 g2 ?_
      simp only [settleFor, he, List.mem_singleton]
  | massCancelOrders ids =>
    cases he : m.massCancelOrders ids with
    | error e =>
      exact err (by simp only [stepLog, he]) (by simp only [Market.step, Market.exec, he]; rfl)
        (by simp only [settleFor, he])
    | ok x =>
      obtain ⟨s, m1⟩ := x
      obtain ⟨os, hos⟩ := C24_only_if hr (by omega) he
      obtain ⟨m', e1, e2, e3⟩ := C24_mass_cancel hr (by omega) hos
      have hmm : m1 = m' := by
        rw [he] at e1
        exact (Prod.mk.inj (Except.ok.inj e1)).2
      subst hmm
      exact canc ids (by simp only [Market.step, Market.exec, he, ok_bind]) (by simp only [stepLog, he])
        (by simp only [stepLog, he]) e2 e3 (by simp only [settleFor, he])
  | consumeEvents n =>
    obtain ⟨m', e1, e2, e3, e4⟩ := C26_consume hr.reachable n
    have g1 : m.step (.consumeEvents n) = m' := by simp only [Market.step, Market.exec, e1, ok_bind]
    have hp : (pending m).take ((pending m).length - (pending m').length) ++ pending m' = pending m := by
      rw [e2, List.length_drop]
      by_cases hn : n ≤ (pending m).length
      · rw [show (pending m).length - ((pending m).length - n) = n by omega, List.take_append_drop]
      · rw [List.drop_eq_nil_of_le (by omega), List.append_nil, List.take_of_length_le (by omega)]
    have hR : roundingsOf g (L.append (stepLog m (.consumeEvents n))) = roundingsOf g L := by
      rw [roundingsOf_append]; simp [stepLog, e1, roundingsOf, ordersOf]
    have hE : (L.append (stepLog m (.consumeEvents n))).events = L.events := by simp [stepLog, e1, Log.append]
    have q1 := congrArg (baseTo g) hp
    have q2 := congrArg (quoteTo g) hp
    rw [baseTo_append] at q1
    rw [quoteTo_append] at q2
    rw [g1]
    unfold outsideBase outsideQuote at *
    constructor <;> (try rw [hR]) <;> rw [hE] <;> simp only [settleFor, e1, outsideBase, outsideQuote, e3] at * <;> omega

theorem runWallet_snoc (g : C → Bool) (is : List (Instr C)) (i : Instr C) : ∀ (m : Market C) (v : Vault),
    runWallet g m v (is ++ [i]) = settleFor g (m.run is) (runWallet g m v is) i := by
  induction is with
  | nil => intro m v; simp [runWallet, Market.run]
  | cons j is ih => intro m v; simp only [List.cons_append, runWallet, ih]; rfl

theorem settled {c : Config} {is : List (Instr C)} (hv : c.Valid) (hok : ∀ i ∈ is, i.Ok) (hlen : is.length ≤ 2 ^ 63)
    (c0 : C) (g : C → Bool) :
    Settled g ((c.market c0).run is) (runWallet g (c.market c0) {} is) (runLog (c.market c0) is) := by
  induction is using List.reverseRecOn with
  | nil =>
    obtain ⟨h1, h2⟩ := create_refines hv c0
    have hr : ∀ side, resting (c.market c0) side = [] := fun side => by rw [h1.resting]; cases side <;> rfl
    have hp : pending (c.market c0) = [] := by rw [h1.pending]; rfl
    show Settled g (c.market c0) {} {}
    constructor <;> simp [outsideBase, outsideQuote, hr, hp, baseTo, quoteTo]
  | append_singleton is i ih =>
    have e : (c.market c0).run (is ++ [i]) = ((c.market c0).run is).step i := by simp [Market.run]
    rw [runLog_snoc, runWallet_snoc, e]
    rw [List.length_append, List.length_singleton] at hlen
    have hok' : ∀ j ∈ is, j.Ok := fun j hj => hok j (by simp [hj])
    exact (ih hok' (by omega)).step g (c := c) (is := is) ⟨hv, hok', c0, rfl⟩ (by omega) (hok i (by simp))

/-- C100: after every history, whatever the others do, a group of users has in its wallets, in its resting orders and in
pending events exactly the base it bought less the base it sold, and the quote it sold for less the quote it paid, but for
at most one quote unit for each of its bids posted and each fill of such a bid. -/
theorem C100_has_what_it_traded {c : Config} {is : List (Instr C)} (hv : c.Valid) (hok : ∀ i ∈ is, i.Ok)
    (hlen : is.length ≤ 2 ^ 63) (c0 : C) (g : C → Bool) {L : Log C} (hL : L = runLog (c.market c0) is) {m : Market C}
    (hm : m = (c.market c0).run is) {v : Vault} (hw : v = runWallet g (c.market c0) {} is) :
    v.base + outsideBase g m = (sumBase (buysOf g L.events) : Int) - sumBase (sellsOf g L.events) ∧
    v.quote + outsideQuote g m ≤ (sumQuote (sellsOf g L.events) : Int) - sumQuote (buysOf g L.events) ∧
    (sumQuote (sellsOf g L.events) : Int) - sumQuote (buysOf g L.events) ≤ v.quote + outsideQuote g m + roundingsOf g L := by
  subst hL hm hw
  have h := settled hv hok hlen c0 g
  exact ⟨h.base, h.quote_le, h.quote_ge⟩

/-- C100: once a group has no resting order and no pending event, its wallets have changed by what it traded. -/
theorem C100_all_back {c : Config} {is : List (Instr C)} (hv : c.Valid) (hok : ∀ i ∈ is, i.Ok)
    (hlen : is.length ≤ 2 ^ 63) (c0 : C) (g : C → Bool) {L : Log C} (hL : L = runLog (c.market c0) is) {m : Market C}
    (hm : m = (c.market c0).run is) {v : Vault} (hw : v = runWallet g (c.market c0) {} is)
    (hrest : ∀ side, ∀ o ∈ resting m side, g o.cb = false)
    (hpend : ∀ e ∈ pending m, e.buyer.any g = false ∧ e.seller.any g = false ∧ ∀ side id b cb, e = .out side id b cb → g cb = false) :
    v.base = (sumBase (buysOf g L.events) : Int) - sumBase (sellsOf g L.events) ∧
    v.quote ≤ (sumQuote (sellsOf g L.events) : Int) - sumQuote (buysOf g L.events) ∧
    (sumQuote (sellsOf g L.events) : Int) - sumQuote (buysOf g L.events) ≤ v.quote + roundingsOf g L := by
  have h := C100_has_what_it_traded hv hok hlen c0 g hL hm hw
  have r : ∀ side, ordersOf g (resting m side) = [] := fun side => by
    unfold ordersOf
    rw [List.filter_eq_nil_iff]
    intro o ho; rw [hrest side o ho]; simp
  have b : buysOf g (pending m) = [] := by
    unfold buysOf
    rw [List.filter_eq_nil_iff]
    intro e he; rw [(hpend e he).1]; simp
  have s : sellsOf g (pending m) = [] := by
    unfold sellsOf
    rw [List.filter_eq_nil_iff]
    intro e he; rw [(hpend e he).2.1]; simp
  have o : outsTo g (pending m) = [] := by
    unfold outsTo
    rw [List.filter_eq_nil_iff]
    intro e he
    cases e with
    | fill => simp
    | out side id b cb => simp [(hpend _ he).2.2 side id b cb rfl]
  simpa [outsideBase, outsideQuote, baseTo, quoteTo, r, b, s, o, sumQty, sumValue] using h

omit [CallbackInfo C] in
theorem to_split (g : C → Bool) (es : List (Event C)) :
    baseDue es = baseTo g es + baseTo (fun c => !g c) es ∧ quoteDue es = quoteTo g es + quoteTo (fun c => !g c) es := by
  unfold baseTo quoteTo
  induction es with
  | nil => simp
  | cons e es ih =>
    obtain ⟨i1, i2⟩ := ih
    cases e with
    | fill ts id b q mk tk =>
      rw [buysOf_fill, buysOf_fill, sellsOf_fill, sellsOf_fill, outsTo_fill, outsTo_fill, baseDue_cons, quoteDue_cons]
      cases ts <;> cases hm : g mk <;> cases ht : g tk <;>
        simp only [Bool.not_true, Bool.not_false, hm, ht, if_true, if_false, Bool.false_eq_true, sumBase_cons, sumQuote_cons,
          Event.base, Event.quote, Event.baseDue, Event.quoteDue] <;> omega
    | out side id b cb =>
      rw [buysOf_out, buysOf_out, sellsOf_out, sellsOf_out, outsTo_out, outsTo_out, baseDue_cons, quoteDue_cons]
      cases hc : g cb <;>
        simp only [Bool.not_true, Bool.not_false, hc, if_true, if_false, Bool.false_eq_true, baseDue_cons, quoteDue_cons] <;> omega

omit [CallbackInfo C] in
theorem orders_split (g : C → Bool) (f : Order C → Nat) (l : List (Order C)) :
    (l.map f).sum = ((ordersOf g l).map f).sum + ((ordersOf (fun c => !g c) l).map f).sum := by
  induction l with
  | nil => rfl
  | cons o l ih =>
    rw [ordersOf_cons, ordersOf_cons]
    cases hg : g o.cb <;>
      simp only [hg, Bool.not_true, Bool.not_false, if_true, if_false, Bool.false_eq_true, List.map_cons, List.sum_cons] <;> omega

/-- C100: what leaves the vault comes into the wallets of the group or of the others, and the other way round. -/
theorem C100_nothing_lost {c is} (hr : ReachBy c is m) {js : List (Instr C)}
    (hjs : ∀ i ∈ js, i.Ok) (hl : is.length + js.length ≤ 2 ^ 63) (g : C → Bool) (v w u : Vault) :
    (runVault m v js).base + (runWallet g m w js).base + (runWallet (fun c => !g c) m u js).base = v.base + w.base + u.base ∧
    (runVault m v js).quote + (runWallet g m w js).quote + (runWallet (fun c => !g c) m u js).quote =
      v.quote + w.quote + u.quote := by
  induction js generalizing m is v w u with
  | nil => exact ⟨rfl, rfl⟩
  | cons i js ih =>
    simp only [List.length_cons] at hl
    have hstep : (settle m v i).base + (settleFor g m w i).base + (settleFor (fun c => !g c) m u i).base =
          v.base + w.base + u.base ∧
        (settle m v i).quote + (settleFor g m w i).quote + (settleFor (fun c => !g c) m u i).quote =
          v.quote + w.quote + u.quote := by
      cases i with
      | newOrder p =>
        simp only [settle, settleFor]
        cases m.newOrder p with
        | error e => exact ⟨rfl, rfl⟩
        | ok x =>
          obtain ⟨s, m'⟩ := x
          simp only
          by_cases hg : g p.callbackInfo = true
          · rw [if_pos hg, if_neg (by simp [hg])]
            cases p.side <;> constructor <;> simp only <;> omega
          · rw [if_neg hg, if_pos (by simp [hg])]
            cases p.side <;> constructor <;> simp only <;> omega
      | cancelOrder id =>
        cases he : m.cancelOrder id with
        | error e => simp only [settle, settleFor, he, and_self]
        | ok x =>
          obtain ⟨s, m'⟩ := x
          obtain ⟨_, _, g3⟩ := cancel_settles hr (by omega) he
          rw [g3 v]
          simp only [settleFor, he, List.mem_singleton]
          have q1 := orders_split g Order.qty ((resting m .ask).filter (fun o => decide (o.id = id)))
          have q2 := orders_split g Order.value ((resting m .bid).filter (fun o => decide (o.id = id)))
          unfold sumQty sumValue
          omega
      | massCancelOrders ids =>
        simp only [settle, settleFor]
        cases m.massCancelOrders ids with
        | error e => exact ⟨rfl, rfl⟩
        | ok x =>
          have q1 := orders_split g Order.qty ((resting m .ask).filter (fun o => decide (o.id ∈ ids)))
          have q2 := orders_split g Order.value ((resting m .bid).filter (fun o => decide (o.id ∈ ids)))
          unfold sumQty sumValue
          simp only
          omega
      | consumeEvents n =>
        simp only [settle, settleFor]
        cases m.consumeEvents n with
        | error e => exact ⟨rfl, rfl⟩
        | ok m' =>
          obtain ⟨q1, q2⟩ := to_split g ((pending m).take ((pending m).length - (pending m').length))
          simp only
          omega
    have hr' : ReachBy c (is ++ [i]) (m.step i) := by
      obtain ⟨h1, h2, c0, rfl⟩ := hr
      refine ⟨h1, ?_, c0, by simp [Market.run]⟩
      intro j hj
      rcases List.mem_append.1 hj with hj | hj
      · exact h2 j hj
      · rw [List.mem_singleton.1 hj]; exact hjs i (by simp)
    have := ih hr' (fun j hj => hjs j (by simp [hj])) (by simp; omega) (settle m v i) (settleFor g m w i)
      (settleFor (fun c => !g c) m u i)
    simp only [runVault, runWallet]
    omega

/-! ### Examples -/

/-- The history of `custodyHist` (a bid of 7 at 10.5 by user 1, who buys 3 of user 2), seen by user 1 and by user 2. -/
example :
    let m0 := demoCfg.market ⟨0, 0⟩
    let user := fun n (c : DemoCb) => c.user == n
    runWallet (user 1) m0 {} (custodyHist.take 3) = ⟨0, -74⟩ ∧ outsideBase (user 1) (m0.run (custodyHist.take 3)) = 3 ∧
    outsideQuote (user 1) (m0.run (custodyHist.take 3)) = 42 ∧
    runWallet (user 1) m0 {} custodyHist = ⟨3, -32⟩ ∧ runWallet (user 2) m0 {} custodyHist = ⟨-3, 31⟩ ∧
    runWallet (user 3) m0 {} custodyHist = ⟨0, 0⟩ ∧ roundingsOf (user 1) (runLog m0 custodyHist) = 2 ∧
    roundingsOf (user 2) (runLog m0 custodyHist) = 0 := by decide +kernel

example (n : Nat) := C100_has_what_it_traded demo_valid (is := demoLong) (by decide +kernel) (by decide) ⟨0, 0⟩
  (fun c => c.user == n) rfl rfl rfl
example := C100_all_back demo_valid (is := custodyHist) (by decide +kernel) (by decide) ⟨0, 0⟩
  (fun c => c.user == 1) rfl rfl rfl (by intro side; cases side <;> decide +kernel)
  (by rw [show pending ((demoCfg.market ⟨0, 0⟩).run custodyHist) = [] by decide +kernel]; simp)
example (v w u : Vault) := C100_nothing_lost demo_reachBy (js := [.newOrder demoTake, .consumeEvents 2])
  (by decide +kernel) (by decide) (fun c => c.user == 1) v w u

end AOB
