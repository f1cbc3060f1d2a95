import Verif.Spec.Custody
import Verif.Props.History
/-
Custody (C68): a program that collects and pays what the order book tells it can always pay.
-/
namespace AOB
variable {C : Type}

/-! ### Sums -/

@[simp] theorem baseDue_nil : baseDue ([] : List (Event C)) = 0 := rfl
@[simp] theorem quoteDue_nil : quoteDue ([] : List (Event C)) = 0 := rfl
@[simp] theorem baseDue_cons (e : Event C) (es : List (Event C)) : baseDue (e :: es) = e.baseDue + baseDue es := by
  simp [baseDue]
@[simp] theorem quoteDue_cons (e : Event C) (es : List (Event C)) : quoteDue (e :: es) = e.quoteDue + quoteDue es := by
  simp [quoteDue]
theorem baseDue_append (a b : List (Event C)) : baseDue (a ++ b) = baseDue a + baseDue b := by simp [baseDue]
theorem quoteDue_append (a b : List (Event C)) : quoteDue (a ++ b) = quoteDue a + quoteDue b := by simp [quoteDue]
@[simp] theorem sumValue_nil : sumValue ([] : List (Order C)) = 0 := rfl
@[simp] theorem sumValue_cons (o : Order C) (l : List (Order C)) : sumValue (o :: l) = o.value + sumValue l := by
  simp [sumValue]
theorem sumValue_append (a b : List (Order C)) : sumValue (a ++ b) = sumValue a + sumValue b := by simp [sumValue]

theorem floor_split (a b : Nat) :
    a / 2 ^ 32 + b / 2 ^ 32 ≤ (a + b) / 2 ^ 32 ∧ (a + b) / 2 ^ 32 ≤ a / 2 ^ 32 + b / 2 ^ 32 + 1 := by omega

theorem filter_split {α : Type} (f : α → Nat) (P : α → Prop) [DecidablePred P] (l : List α) :
    (l.map f).sum = ((l.filter (fun x => decide (P x))).map f).sum +
      ((l.filter (fun x => decide (¬ P x))).map f).sum := by
  induction l with
  | nil => rfl
  | cons a l ih =>
    by_cases h : P a
    · rw [List.filter_cons_of_pos (by simpa using h), List.filter_cons_of_neg (by simpa using h)]
      simp only [List.map_cons, List.sum_cons]
      omega
    · rw [List.filter_cons_of_neg (by simpa using h), List.filter_cons_of_pos (by simpa using h)]
      simp only [List.map_cons, List.sum_cons]
      omega

variable [CallbackInfo C] {p : NewOrderParams C} {minBase : Nat}

/-! ### Matching -/

/-- A buyer takes base out of asks and the events say so; the quote due is the quote of the fills. -/
theorem Steps.due_bid (hb : p.side = .bid) {n opp b q es opp' b' q'} (h : Steps p minBase n opp b q es opp' b' q') :
    sumQty opp = sumQty opp' + baseDue es ∧ quoteDue es = sumQuote (fills es) := by
  have hopp : p.side.opposite = .ask := by rw [hb]; rfl
  induction h with
  | refl => simp
  | selfOut _ _ _ _ ih =>
    simp only [hopp, sumQty_cons, baseDue_cons, quoteDue_cons, Event.baseDue, Event.quoteDue, fills_out]
    omega
  | @fillOut n o rest b q es opp' b' q' _ _ _ _ ih =>
    have h1 := (tradeQty_le (o := o) (b := b) (q := q)).1
    generalize tradeQty o b q = t at *
    generalize worth p.side t o.price = w at *
    simp only [hopp, sumQty_cons, baseDue_cons, quoteDue_cons, Event.baseDue, Event.quoteDue, fills_fill,
      fills_out, sumQuote_cons, Event.quote]
    omega
  | @fillKeep n o rest b q es opp' b' q' _ _ _ _ ih =>
    have h1 := (tradeQty_le (o := o) (b := b) (q := q)).1
    generalize tradeQty o b q = t at *
    generalize worth p.side t o.price = w at *
    simp only [sumQty_cons, baseDue_cons, quoteDue_cons, Event.baseDue, Event.quoteDue, fills_fill,
      sumQuote_cons, Event.quote] at ih ⊢
    omega

/-- A seller takes value out of bids: the events never say more, and at most one unit less for each fill. -/
theorem Steps.due_ask (ha : p.side = .ask) {n opp b q es opp' b' q'} (h : Steps p minBase n opp b q es opp' b' q') :
    sumValue opp' + quoteDue es ≤ sumValue opp ∧ sumValue opp ≤ sumValue opp' + quoteDue es + (fills es).length ∧
      baseDue es = sumBase (fills es) := by
  have split : ∀ (o : Order C) (t : Nat), t ≤ o.qty →
      t * o.price / 2 ^ 32 + (o.qty - t) * o.price / 2 ^ 32 ≤ o.value ∧
      o.value ≤ t * o.price / 2 ^ 32 + (o.qty - t) * o.price / 2 ^ 32 + 1 := by
    intro o t ht
    have := floor_split (t * o.price) ((o.qty - t) * o.price)
    rw [← Nat.add_mul, show t + (o.qty - t) = o.qty by omega] at this
    exact this
  have hopp : p.side.opposite = .bid := by rw [ha]; rfl
  have hw : ∀ t x, worth p.side t x = t * x / 2 ^ 32 := fun t x => by rw [ha]; rfl
  induction h with
  | refl => simp
  | selfOut _ _ _ _ ih =>
    simp only [hopp, sumValue_cons, baseDue_cons, quoteDue_cons, Event.baseDue, Event.quoteDue, fills_out,
      Order.value, Order.price]
    omega
  | @fillOut n o rest b q es opp' b' q' _ _ _ _ ih =>
    have h1 := split o _ (tradeQty_le (o := o) (b := b) (q := q)).1
    generalize tradeQty o b q = t at *
    simp only [hopp, sumValue_cons, baseDue_cons, quoteDue_cons, Event.baseDue, Event.quoteDue, fills_fill,
      fills_out, sumBase_cons, Event.base, hw, List.length_cons] at ih ⊢
    rw [show o.id / 2 ^ 64 = o.price from rfl]
    omega
  | @fillKeep n o rest b q es opp' b' q' _ _ _ _ ih =>
    have h1 := split o _ (tradeQty_le (o := o) (b := b) (q := q)).1
    generalize tradeQty o b q = t at *
    have hv : Order.value { o with qty := o.qty - t } = (o.qty - t) * o.price / 2 ^ 32 := rfl
    simp only [sumValue_cons, baseDue_cons, quoteDue_cons, Event.baseDue, Event.quoteDue, fills_fill,
      sumBase_cons, Event.base, hw, List.length_cons, hv] at ih ⊢
    omega

omit [CallbackInfo C] in
theorem sum_insertOrder (f : Order C → Nat) (side : Side) (o : Order C) (l : List (Order C)) :
    ((insertOrder side o l).map f).sum = f o + (l.map f).sum := by
  unfold insertOrder
  have := congrArg (fun l => (l.map f).sum)
    (List.takeWhile_append_dropWhile (p := fun x => side.asGood x.price o.price) (l := l))
  simp only [List.map_append, List.map_cons, List.sum_append, List.sum_cons] at this ⊢
  generalize (List.map f (l.takeWhile _)).sum = x at *
  generalize (List.map f (l.dropWhile _)).sum = y at *
  omega

/-! ### One new order -/

variable {m m' : Market C} {s : OrderSummary}

theorem due_new {c is} (h : ReachBy c is m) (hlen : is.length < 2 ^ 63) (hp : (Instr.newOrder p).Ok)
    (he : m.newOrder p = .ok (s, m')) :
    (match p.side with
      | .bid => owedBase m' = owedBase m ∧ owedQuote m' ≤ owedQuote m + s.totalQuoteQty ∧
          owedQuote m + s.totalQuoteQty ≤ owedQuote m' + (postedBy p s).length
      | .ask => owedBase m' = owedBase m + s.totalBaseQty ∧ owedQuote m' ≤ owedQuote m ∧
          owedQuote m ≤ owedQuote m' + (fills (emitted m m')).length) := by
  obtain ⟨a, a', n, r, ex, v, _, _, _, _, hseq⟩ := h.view hp he
  obtain ⟨s1, s2⟩ := C05_summary h.reachable hp he
  rw [v.fills] at s1 s2
  have hmin := v.ok.steps
  have hfr : (fills (emitted m m')).length = (fills r.events).length := by rw [v.fills]
  have hpend : pending m' = pending m ++ (r.events ++ ex) := by rw [v.pend', v.pend]
  unfold owedBase owedQuote
  rw [hpend, hfr]
  simp only [baseDue_append, quoteDue_append]
  clear hfr
  cases hs : p.side with
  | bid =>
    rw [hs] at s2
    obtain ⟨d1, d2⟩ := hmin.due_bid hs
    have ropp : resting m .ask = a.orders .ask := v.rest .ask
    have ropp' : resting m' .ask = r.opp := by rw [v.rest' .ask]; have := v.ok.opp; rw [hs] at this; exact this
    have rown : resting m .bid = a.orders .bid := v.rest .bid
    have rown' : resting m' .bid = a'.orders .bid := v.rest' .bid
    rw [hs] at d1
    rw [ropp, ropp', rown, rown']
    simp only [Side.opposite] at d1
    have key : baseDue ex = 0 ∧ sumValue (a'.orders .bid) + quoteDue ex ≤ sumValue (a.orders .bid) +
        (s.totalBaseQtyPosted * p.limitPrice + (2 ^ 32 - 1)) / 2 ^ 32 ∧
        sumValue (a.orders .bid) + (s.totalBaseQtyPosted * p.limitPrice + (2 ^ 32 - 1)) / 2 ^ 32 ≤
          sumValue (a'.orders .bid) + quoteDue ex + (postedBy p s).length := by
      rcases v.post with ⟨hc, hx⟩ | ⟨hc, hx⟩ | ⟨kept, ev, hc, hx⟩
      · have ho := hc.own
        rw [hs] at ho
        rw [hx, ho, hc.sum]; simp
      · have ho := hc.own
        rw [hs] at ho
        rw [hx, ho, hc.sum]; simp
      · have ho := hc.own
        rw [hs] at ho
        rw [hx, ho, hc.sum]
        simp only [postedBy, List.length_singleton]
        generalize min (affordable r.quote p.limitPrice) r.base = t
        have hval : Order.value (⟨mkOrderId .bid p.limitPrice a.seq, t, p.callbackInfo⟩ : Order C) =
            t * p.limitPrice / 2 ^ 32 := by
          unfold Order.value Order.price
          simp only
          rw [mkOrderId_price (by omega)]
        have hins := sum_insertOrder Order.value .bid
          (⟨mkOrderId .bid p.limitPrice a.seq, t, p.callbackInfo⟩ : Order C) kept
        rw [hval] at hins
        unfold sumValue
        rw [hins]
        rcases hc.evict with ⟨e1, e2, _⟩ | ⟨w, e1, e2, _⟩
        · rw [e1, e2, hs]
          simp only [evictEvents, quoteDue_nil, baseDue_nil]
          exact ⟨trivial, by omega, by omega⟩
        · rw [hs] at e2
          rw [e1, e2, hs]
          simp only [evictEvents, quoteDue_cons, baseDue_cons, quoteDue_nil, baseDue_nil, Event.baseDue,
            Event.quoteDue, List.map_append, List.map_cons, List.map_nil, List.sum_append, List.sum_cons,
            List.sum_nil, Order.value, Order.price]
          refine ⟨by simp, ?_⟩
          generalize w.qty * (w.id / 2 ^ 64) / 2 ^ 32 = x
          omega
    simp only at s2 ⊢
    omega
  | ask =>
    obtain ⟨d1, d2, d3⟩ := hmin.due_ask hs
    have ropp : resting m .bid = a.orders .bid := v.rest .bid
    have ropp' : resting m' .bid = r.opp := by rw [v.rest' .bid]; have := v.ok.opp; rw [hs] at this; exact this
    have rown : resting m .ask = a.orders .ask := v.rest .ask
    have rown' : resting m' .ask = a'.orders .ask := v.rest' .ask
    rw [hs] at d1 d2
    rw [ropp, ropp', rown, rown']
    simp only [Side.opposite] at d1 d2
    have key : quoteDue ex = 0 ∧ sumQty (a'.orders .ask) + baseDue ex = sumQty (a.orders .ask) +
        s.totalBaseQtyPosted := by
      rcases v.post with ⟨hc, hx⟩ | ⟨hc, hx⟩ | ⟨kept, ev, hc, hx⟩
      · have ho := hc.own
        rw [hs] at ho
        rw [hx, ho, hc.sum]; simp
      · have ho := hc.own
        rw [hs] at ho
        rw [hx, ho, hc.sum]; simp
      · have ho := hc.own
        rw [hs] at ho
        rw [hx, ho, hc.sum]
        simp only
        generalize min (affordable r.quote p.limitPrice) r.base = t
        have hins := sum_insertOrder Order.qty .ask
          (⟨mkOrderId .ask p.limitPrice a.seq, t, p.callbackInfo⟩ : Order C) kept
        unfold sumQty
        rw [hins]
        rcases hc.evict with ⟨e1, e2, _⟩ | ⟨w, e1, e2, _⟩
        · rw [e1, e2, hs]
          simp only [evictEvents, quoteDue_nil, baseDue_nil]
          exact ⟨trivial, by omega⟩
        · rw [hs] at e2
          rw [e1, e2, hs]
          simp only [evictEvents, quoteDue_cons, baseDue_cons, quoteDue_nil, baseDue_nil, Event.baseDue,
            Event.quoteDue, List.map_append, List.map_cons, List.map_nil, List.sum_append, List.sum_cons,
            List.sum_nil]
          exact ⟨by simp, by omega⟩
    simp only
    omega

/-! ### Histories -/

/-- The funds cover what is owed, and exceed it in quote by no more than one unit for each rounding. -/
structure Covered (m : Market C) (v : Vault) (k : Nat) : Prop where
  base : v.base = owedBase m
  quote_ge : (owedQuote m : Int) ≤ v.quote
  quote_le : v.quote ≤ owedQuote m + k

omit [CallbackInfo C] in
theorem roundings_append (a b : Log C) : roundings (a.append b) = roundings a + roundings b := by
  unfold roundings Log.append
  simp only [List.filter_append, List.length_append]
  omega

theorem roundings_new {c is} (h : ReachBy c is m) (hlen : is.length < 2 ^ 63) (hp : (Instr.newOrder p).Ok)
    (he : m.newOrder p = .ok (s, m')) :
    roundings (stepLog m (.newOrder p)) =
      (match p.side with
        | .bid => (postedBy p s).length
        | .ask => (fills (emitted m m')).length) := by
  have hlog : stepLog m (.newOrder p) = { posted := postedBy p s, events := emitted m m' } := by
    simp only [stepLog, he]
  rw [hlog]
  unfold roundings
  simp only
  have hpo : (postedBy p s).filter (fun o => sideOfId o.id == .bid) =
      (match p.side with | .bid => postedBy p s | .ask => []) := by
    unfold postedBy
    cases hi : s.postedOrderId with
    | none => cases p.side <;> rfl
    | some i =>
      obtain ⟨e1, _, e3⟩ := posted_id h hp he hi
      have : sideOfId i = p.side := by rw [e1]; exact mkOrderId_side (by omega)
      cases hs : p.side <;> rw [hs] at this <;> simp [this]
  have hev : (emitted m m').filter (fun e => e.isFill && e.makerSide == .bid) =
      (match p.side with | .bid => [] | .ask => fills (emitted m m')) := by
    have hf : ∀ e ∈ emitted m m', e.isFill = true → e.makerSide = p.side.opposite := by
      intro e hm hf
      obtain ⟨a, a', n, r, ex, v⟩ := h.reachable.view hp he
      obtain ⟨o, _, t, rfl, _⟩ := v.ok.steps.fill e (v.mem_fill hm hf) hf
      rfl
    cases hs : p.side with
    | bid =>
      simp only
      rw [List.filter_eq_nil_iff]
      intro e hm hh
      simp only [Bool.and_eq_true, beq_iff_eq] at hh
      have := hf e hm hh.1
      rw [hs, hh.2] at this
      cases this
    | ask =>
      simp only
      unfold fills
      apply List.filter_congr
      intro e hm
      cases hh : e.isFill with
      | false => rfl
      | true =>
        have := hf e hm hh
        rw [this, hs]; rfl
  rw [hpo, hev]
  cases p.side <;> simp

/-- A cancellation takes the order off the book, and what the summary says is its quantity or its value. -/
theorem cancel_settles {c is} (hr : ReachBy c is m) (hlen : is.length ≤ 2 ^ 63) {id : Nat}
    (he : m.cancelOrder id = .ok (s, m')) :
    (∀ side, resting m' side = (resting m side).filter (fun x => decide (x.id ∉ [id]))) ∧ pending m' = pending m ∧
    ∀ v : Vault, settle m v (.cancelOrder id) =
      { base := v.base - sumQty ((resting m .ask).filter (fun o => decide (o.id ∈ [id])))
        quote := v.quote - sumValue ((resting m .bid).filter (fun o => decide (o.id ∈ [id]))) } := by
  have hex : ∃ o ∈ allResting m, o.id = id := by
    by_contra hno
    have hno' : ∀ side, ∀ o ∈ resting m side, o.id ≠ id :=
      fun side o ho hid => hno ⟨o, mem_allResting.2 ⟨side, ho⟩, hid⟩
    rcases C22_cancel_missing hr.reachable hno' with h' | ⟨h', _⟩ <;> rw [h'] at he <;> cases he
  obtain ⟨o, ho, rfl⟩ := hex
  obtain ⟨_, g1, g2⟩ := hr.cancel_step hlen (mem_allResting.1 ho)
  have hst : m.step (.cancelOrder o.id) = m' := by simp only [Market.step, Market.exec, he, ok_bind]
  rw [hst] at g1 g2
  obtain ⟨side, hos⟩ := mem_allResting.1 ho
  obtain ⟨A, B, hAB⟩ := List.append_of_mem hos
  obtain ⟨m1, c1, _⟩ := C21_cancel hr hlen hAB
  have he0 := he
  rw [he] at c1
  obtain ⟨rfl, rfl⟩ := Prod.mk.inj (Except.ok.inj c1)
  have hside : sideOfId o.id = side := by
    obtain ⟨hk, hseq, _⟩ := hr.known
    rw [hk.rep.resting] at hos
    obtain ⟨n, hn, hoid⟩ := (hk.inv.ok side o hos).id
    rw [hoid]; exact mkOrderId_side (by omega)
  have hone : ofId o.id (allResting m) = [o] := ofId_some hr.all_nodup ho
  have hsel : ∀ sd, (resting m sd).filter (fun y => decide (y.id ∈ [o.id])) = if sd = side then [o] else [] := by
    have e : ∀ sd, (resting m sd).filter (fun y => decide (y.id ∈ [o.id])) = ofId o.id (resting m sd) := by
      intro sd
      unfold ofId
      apply List.filter_congr
      intro y _
      by_cases hy : y.id = o.id <;> simp [hy]
    intro sd
    rw [e]
    unfold allResting at hone
    rw [ofId_append] at hone
    have hin : o ∈ ofId o.id (resting m side) := by unfold ofId; rw [List.mem_filter]; exact ⟨hos, by simp⟩
    rcases List.append_eq_singleton_iff.1 hone with ⟨x1, x2⟩ | ⟨x1, x2⟩ <;> cases side <;> cases sd <;>
      first
      | (rw [x1] at hin; simp at hin; done)
      | (rw [x2] at hin; simp at hin; done)
      | simp [x1, x2]
  refine ⟨?_, g2, ?_⟩
  · intro sd
    rw [g1 sd]
    apply List.filter_congr
    intro y _
    by_cases hy : y.id = o.id <;> simp [hy]
  · intro v
    simp only [settle, he0, hside, hsel]
    cases side <;> simp [sumQty, Order.value]

theorem Covered.step {c is} (hr : ReachBy c is m) (hlen : is.length < 2 ^ 63) {i : Instr C} (hi : i.Ok)
    {v : Vault} {k : Nat} (h : Covered m v k) : Covered (m.step i) (settle m v i) (k + roundings (stepLog m i)) := by
  obtain ⟨h1, h2, h3⟩ := h
  have err : ∀ {i : Instr C}, stepLog m i = {} → m.step i = m → settle m v i = v →
      Covered (m.step i) (settle m v i) (k + roundings (stepLog m i)) := by
    intro i e1 e2 e3
    rw [e1, e2, e3]
    exact ⟨h1, h2, by simpa [roundings] using h3⟩
  have canc : ∀ {i : Instr C} {m' : Market C} (ids : List Nat), m.step i = m' → roundings (stepLog m i) = 0 →
      (∀ side, resting m' side = (resting m side).filter (fun x => decide (x.id ∉ ids))) → pending m' = pending m →
      settle m v i = { base := v.base - sumQty ((resting m .ask).filter (fun o => decide (o.id ∈ ids)))
                       quote := v.quote - sumValue ((resting m .bid).filter (fun o => decide (o.id ∈ ids))) } →
      Covered (m.step i) (settle m v i) (k + roundings (stepLog m i)) := by
    intro i m' ids e1 e2 e3 e4 e5
    rw [e1, e2, e5]
    have q1 := filter_split Order.qty (fun o : Order C => o.id ∈ ids) (resting m .ask)
    have q2 := filter_split Order.value (fun o : Order C => o.id ∈ ids) (resting m .bid)
    unfold owedBase owedQuote at *
    refine ⟨?_, ?_, ?_⟩ <;> simp only [owedBase, owedQuote, e3, e4, sumQty, sumValue] at * <;> omega
  cases i with
  | newOrder p =>
    cases he : m.newOrder p with
    | error e =>
      exact err (by simp only [stepLog, he]) (by simp only [Market.step, Market.exec, he]; rfl)
        (by simp only [settle, he])
    | ok x =>
      obtain ⟨s, m'⟩ := x
      have e1 : m.step (.newOrder p) = m' := by simp only [Market.step, Market.exec, he, ok_bind]
      have hd := due_new hr hlen hi he
      rw [roundings_new hr hlen hi he, e1]
      simp only [settle, he]
      cases hs : p.side <;> rw [hs] at hd <;> simp only at hd ⊢ <;> obtain ⟨d1, d2, d3⟩ := hd <;>
        constructor <;> simp only <;> omega
  | cancelOrder id =>
    cases he : m.cancelOrder id with
    | error e =>
      exact err (by simp only [stepLog, he]) (by simp only [Market.step, Market.exec, he]; rfl)
        (by simp only [settle, he])
    | ok x =>
      obtain ⟨s, m'⟩ := x
      obtain ⟨g1, g2, g3⟩ := cancel_settles hr (by omega) he
      refine canc (m' := m') [id] (by simp only [Market.step, Market.exec, he, ok_bind]) ?_ g1 g2 (g3 v)
      simp [stepLog, he, roundings]
  | massCancelOrders ids =>
    cases he : m.massCancelOrders ids with
    | error e =>
      exact err (by simp only [stepLog, he]) (by simp only [Market.step, Market.exec, he]; rfl)
        (by simp only [settle, he])
    | ok x =>
      obtain ⟨s, m1⟩ := x
      obtain ⟨os, hos⟩ := C24_only_if hr (by omega) he
      obtain ⟨m', e1, e2, e3⟩ := C24_mass_cancel hr (by omega) hos
      have hmm : m1 = m' := by
        rw [he] at e1
        exact (Prod.mk.inj (Except.ok.inj e1)).2
      subst hmm
      refine canc ids (by simp only [Market.step, Market.exec, he, ok_bind]) ?_ e2 e3 (by simp only [settle, he])
      simp [stepLog, he, roundings]
  | consumeEvents n =>
    obtain ⟨m', e1, e2, e3, e4⟩ := C26_consume hr.reachable n
    have g1 : m.step (.consumeEvents n) = m' := by simp only [Market.step, Market.exec, e1, ok_bind]
    have g2 : roundings (stepLog m (.consumeEvents n)) = 0 := by simp [stepLog, e1, roundings]
    have hp : (pending m).take ((pending m).length - (pending m').length) ++ pending m' = pending m := by
      rw [e2, List.length_drop]
      by_cases hn : n ≤ (pending m).length
      · rw [show (pending m).length - ((pending m).length - n) = n by omega, List.take_append_drop]
      · rw [List.drop_eq_nil_of_le (by omega), List.append_nil, List.take_of_length_le (by omega)]
    rw [g1, g2]
    simp only [settle, e1]
    have q1 := congrArg baseDue hp
    have q2 := congrArg quoteDue hp
    rw [baseDue_append] at q1
    rw [quoteDue_append] at q2
    unfold owedBase owedQuote at *
    constructor <;> simp only [owedBase, owedQuote, e3] at * <;> omega

theorem runVault_snoc (is : List (Instr C)) (i : Instr C) : ∀ (m : Market C) (v : Vault),
    runVault m v (is ++ [i]) = settle (m.run is) (runVault m v is) i := by
  induction is with
  | nil => intro m v; simp [runVault, Market.run]
  | cons j is ih => intro m v; simp only [List.cons_append, runVault, ih]; rfl

/-- C68: a program that embeds the order book, collects what the order summaries say and pays what the events and
cancellations say, always holds exactly the base it owes and at least the quote it owes; the excess of quote is at most
one unit for each bid posted and each fill of a resting bid. -/
theorem C68_custody {c : Config} {is : List (Instr C)} (hv : c.Valid) (hok : ∀ i ∈ is, i.Ok)
    (hlen : is.length ≤ 2 ^ 63) (c0 : C) :
    (runVault (c.market c0) {} is).base = owedBase ((c.market c0).run is) ∧
    (owedQuote ((c.market c0).run is) : Int) ≤ (runVault (c.market c0) {} is).quote ∧
    (runVault (c.market c0) {} is).quote ≤
      owedQuote ((c.market c0).run is) + roundings (runLog (c.market c0) is) := by
  suffices h : Covered ((c.market c0).run is) (runVault (c.market c0) {} is) (roundings (runLog (c.market c0) is)) from
    ⟨h.base, h.quote_ge, h.quote_le⟩
  induction is using List.reverseRecOn with
  | nil =>
    obtain ⟨h1, h2⟩ := create_refines hv c0
    have hr : ∀ side, resting (c.market c0) side = [] := fun side => by rw [h1.resting]; cases side <;> rfl
    have hp : pending (c.market c0) = [] := by rw [h1.pending]; rfl
    show Covered (c.market c0) {} 0
    constructor <;> simp [owedBase, owedQuote, hr, hp]
  | append_singleton is i ih =>
    have e : (c.market c0).run (is ++ [i]) = ((c.market c0).run is).step i := by simp [Market.run]
    rw [runLog_snoc, roundings_append, runVault_snoc, e]
    rw [List.length_append, List.length_singleton] at hlen
    have hok' : ∀ j ∈ is, j.Ok := fun j hj => hok j (by simp [hj])
    exact (ih hok' (by omega)).step (c := c) (is := is) ⟨hv, hok', c0, rfl⟩ (by omega) (hok i (by simp))

theorem settle_shift (m : Market C) (v : Vault) (x y : Int) (i : Instr C) :
    settle m { base := v.base + x, quote := v.quote + y } i =
      { base := (settle m v i).base + x, quote := (settle m v i).quote + y } := by
  cases i with
  | newOrder p =>
    simp only [settle]
    cases m.newOrder p with
    | error e => rfl
    | ok z => cases p.side <;> simp only [Vault.mk.injEq, true_and, and_true] <;> omega
  | cancelOrder id =>
    simp only [settle]
    cases m.cancelOrder id with
    | error e => rfl
    | ok z => cases sideOfId id <;> simp only [Vault.mk.injEq, true_and, and_true] <;> omega
  | massCancelOrders ids =>
    simp only [settle]
    cases m.massCancelOrders ids with
    | error e => rfl
    | ok z => simp only [Vault.mk.injEq]; omega
  | consumeEvents n =>
    simp only [settle]
    cases m.consumeEvents n with
    | error e => rfl
    | ok z => simp only [Vault.mk.injEq]; omega

/-- C68: whatever the funds are, one transaction leaves the excess of base over what is owed as it is, and never lowers
the excess of quote. -/
theorem C68_step {c is} (hr : ReachBy c is m) (hlen : is.length < 2 ^ 63) {i : Instr C} (hi : i.Ok) (v : Vault) :
    (settle m v i).base - owedBase (m.step i) = v.base - owedBase m ∧
    v.quote - owedQuote m ≤ (settle m v i).quote - owedQuote (m.step i) := by
  have h : Covered m { base := owedBase m, quote := owedQuote m } 0 := ⟨rfl, le_refl _, by simp⟩
  have h1 := h.step hr hlen hi
  have h2 := settle_shift m { base := owedBase m, quote := owedQuote m } (v.base - owedBase m) (v.quote - owedQuote m) i
  simp only [add_sub_cancel] at h2
  rw [h2]
  have h3 := h1.base
  have h4 := h1.quote_ge
  simp only
  omega

/-- C68: once the book and the event queue are empty, no base is left, and no more quote than one unit for each
rounding; nothing is missing. -/
theorem C68_all_paid {c : Config} {is : List (Instr C)} (hv : c.Valid) (hok : ∀ i ∈ is, i.Ok)
    (hlen : is.length ≤ 2 ^ 63) (c0 : C) (hrest : ∀ side, resting ((c.market c0).run is) side = [])
    (hpend : pending ((c.market c0).run is) = []) :
    (runVault (c.market c0) {} is).base = 0 ∧ 0 ≤ (runVault (c.market c0) {} is).quote ∧
    (runVault (c.market c0) {} is).quote ≤ roundings (runLog (c.market c0) is) := by
  have := C68_custody hv hok hlen c0
  simpa [owedBase, owedQuote, hrest, hpend] using this

/-! ### Examples -/

/-- An order at the price 10.5. -/
def custodyOrder (side : Side) (qty user : Nat) : NewOrderParams DemoCb :=
  { demoOrder side qty 0 user with limitPrice := 21 * 2 ^ 31 }

/-- A bid of 7 at 10.5, an ask that sells 3 to it, one more ask that rests elsewhere, everything cancelled and consumed. -/
def custodyHist : List (Instr DemoCb) :=
  [.newOrder (custodyOrder .bid 7 1), .newOrder (custodyOrder .ask 3 2), .newOrder (demoOrder .ask 4 12 3),
   .consumeEvents 1, .cancelOrder (21 * 2 ^ 95 + (2 ^ 64 - 1)), .massCancelOrders [12 * 2 ^ 96 + 1]]

/-- 74 is collected for a bid worth 73.5; the fill of 3 pays 31 (31.5), the rest of 4 gives back 42; one unit stays. -/
example :
    let m0 := demoCfg.market ⟨0, 0⟩
    runVault m0 {} (custodyHist.take 1) = ⟨0, 74⟩ ∧ owedQuote (m0.run (custodyHist.take 1)) = 73 ∧
    runVault m0 {} (custodyHist.take 3) = ⟨7, 74⟩ ∧ owedBase (m0.run (custodyHist.take 3)) = 7 ∧
    owedQuote (m0.run (custodyHist.take 3)) = 73 ∧ runVault m0 {} (custodyHist.take 4) = ⟨4, 43⟩ ∧
    runVault m0 {} custodyHist = ⟨0, 1⟩ ∧ roundings (runLog m0 custodyHist) = 2 := by decide +kernel

example := C68_custody demo_valid (is := custodyHist.take 3) (by decide +kernel) (by decide) ⟨0, 0⟩
example := C68_custody demo_valid (is := demoLong) (by decide +kernel) (by decide) ⟨0, 0⟩
example := C68_step demo_reachBy (by decide) demoTake_ok { base := 3, quote := -1 }
example := C68_all_paid demo_valid (is := custodyHist) (by decide +kernel) (by decide) ⟨0, 0⟩
  (by intro side; cases side <;> decide +kernel) (by decide +kernel)

end AOB
