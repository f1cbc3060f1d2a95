import Verif.Props.Posting
import Verif.Props.Cancel
import Verif.Spec.Compare
/-
When matching stops, when a traded order leaves, the market as a whole against the reference engine, and the
irrelevance of everything that cannot be observed.
-/
namespace AOB
variable {C : Type} [CallbackInfo C] {m m' : Market C} {p : NewOrderParams C} {s : OrderSummary}

/-- C60: matching goes on as long as it can. After a successful `new_order` one of the following holds: the order
was post-only; it used up its match limit; the best opposite order left (if any) is not acceptable at the limit
price; or the largest trade the order's caps still permit with it is of zero base or zero quote. -/
theorem C60_matching_exhaustive (h : Reachable m) (hp : (Instr.newOrder p).Ok) (he : m.newOrder p = .ok (s, m')) :
    p.postOnly = true ∨ rounds p (emitted m m') = p.matchLimit ∨
    ∀ o, (resting m' p.side.opposite).head? = some o →
      (match p.side with | .bid => p.limitPrice < o.price | .ask => o.price < p.limitPrice) ∨
      ∃ t, t = min (min o.qty (p.maxBaseQty - sumBase (fills (emitted m m'))))
            ((p.maxQuoteQty - sumQuote (fills (emitted m m'))) * 2 ^ 32 / o.price) ∧
        (t = 0 ∨ (match p.side with
          | .bid => (t * o.price + (2 ^ 32 - 1)) / 2 ^ 32
          | .ask => t * o.price / 2 ^ 32) = 0) := by
  obtain ⟨a, a', n, r, ex, v⟩ := h.view hp he
  rw [v.rounds, v.rest', v.opp', v.fills]
  obtain ⟨h1, h2⟩ := v.ok.steps.sums
  rw [show p.maxQuoteQty - sumQuote (fills r.events) = r.quote by omega,
    show p.maxBaseQty - sumBase (fills r.events) = r.base by omega]
  have hl := v.ok.limit
  rcases v.ok.stop with ⟨h3, _⟩ | ⟨_, h3⟩
  · exact .inr (.inl (by omega))
  · by_cases hpo : p.postOnly = true
    · exact .inl hpo
    right; right
    intro o ho
    cases hopp : r.opp with
    | nil => rw [hopp] at ho; cases ho
    | cons x rest =>
      rw [hopp] at ho h3
      cases ho
      obtain ⟨_, hnt⟩ := h3
      by_cases hacc : p.side.accepts p.limitPrice o.price = true
      · right
        refine ⟨tradeQty o r.base r.quote, rfl, ?_⟩
        by_contra hc
        rw [not_or] at hc
        refine hnt ⟨by simpa using hpo, hacc, hc.1, ?_⟩
        have hw := hc.2
        unfold worth
        cases hs : p.side <;> rw [hs] at hw <;> exact hw
      · left
        unfold Side.accepts at hacc
        cases hs : p.side <;> rw [hs] at hacc <;> simp only [decide_eq_true_eq, Nat.not_le] at hacc ⊢ <;> exact hacc

/-- C61: an opposite order an event names is either the taker's own, under `CancelProvide` (then `C16_cancel_provide`
says what happens), or it was traded, and then it leaves the book exactly if what remains of it is below the minimum
size. -/
theorem C61_traded_order {c is} (h : ReachBy c is m) (hp : (Instr.newOrder p).Ok) (he : m.newOrder p = .ok (s, m'))
    {x : Order C} (hx : x ∈ resting m p.side.opposite) (hn : ∃ e ∈ emitted m m', e.id = x.id) :
    (CallbackInfo.asCallbackId p.callbackInfo = CallbackInfo.asCallbackId x.cb ∧
      p.selfTradeBehavior = .cancelProvide) ∨
    (fillsOf x.id (emitted m m') ≠ [] ∧
      ((∀ o ∈ resting m' p.side.opposite, o.id ≠ x.id) ↔
        x.qty - sumBase (fillsOf x.id (emitted m m')) < c.minBase)) := by
  obtain ⟨a, a', n, r, ex, v, hmin, _⟩ := h.view hp he
  rw [v.rest] at hx
  have hex := v.ex_ne hx
  have hf : fillsOf x.id (emitted m m') = fillsOf x.id r.events := by
    rw [v.em, fillsOf_append, fillsOf_eq_nil hex, List.append_nil]
  obtain ⟨e, he1, he2⟩ := hn
  rw [v.em] at he1
  have he3 : e ∈ r.events := by
    rcases List.mem_append.1 he1 with h | h
    · exact h
    · exact absurd he2 (hex e h)
  rcases v.ok.steps.fate (v.known.inv.nodup _) x hx ⟨e, he3, he2⟩ with ⟨h1, h2⟩ | ⟨_, h2, h3⟩
  · exact .inl ⟨h1.2, h2⟩
  · right
    rw [hf, v.rest', v.opp', ← hmin]
    refine ⟨h2, ?_⟩
    rw [← Nat.not_le, ← h3]
    simp

/-- An order only leaves the opposite side by being named in an event. -/
example (h : Reachable m) (hp : (Instr.newOrder p).Ok) (he : m.newOrder p = .ok (s, m'))
    (side : Side) {x : Order C} (hx : x ∈ resting m side) (hgone : x ∉ resting m' side) :
    ∃ e ∈ emitted m m', e.id = x.id := by
  by_contra hc
  exact hgone (C48_unnamed_untouched h hp he side hx (fun e he' heq => hc ⟨e, he', heq⟩))

/-! ### The market against the reference engine -/

omit [CallbackInfo C] in
theorem MRep.shows {a : RefMarket C} (h : MRep m a) : Shows m a :=
  ⟨h.resting .bid, h.resting .ask, h.pending, h.seq, h.minBase, h.tick⟩

/-- C62: after every history the market shows what the reference engine holds after the same history. -/
theorem C62_same_state {c is} (h : ReachBy c is m) : Shows m ((c.reference : RefMarket C).run is) :=
  h.known.1.rep.shows

/-- C62: and it answers every further instruction as the reference engine does: the same summary and again the same
state, or the same error. The one exception: a cancellation of an order that does not rest, which the reference engine
answers with `OrderNotFound`, may panic. -/
theorem C62_same_answer {c is} (h : ReachBy c is m) {i : Instr C} (hi : i.Ok) :
    match ((c.reference : RefMarket C).run is).exec i with
    | .ok (s, a') => ∃ m', m.exec i = .ok (s, m') ∧ Shows m' a'
    | .error e => m.exec i = .error e ∨ (e = .ao .orderNotFound ∧ m.exec i = .error .panic) := by
  have hk : Known m ((c.reference : RefMarket C).run is) := h.known.1
  have hr := exec_refines hk.rep hk.inv i hi
  cases hx : ((c.reference : RefMarket C).run is).exec i with
  | error e => rw [hx] at hr; exact hr
  | ok x =>
    rw [hx] at hr
    obtain ⟨m', h1, h2⟩ := hr
    exact ⟨m', h1, h2.shows⟩

/-! ### What cannot be observed does not matter -/

/-- C63: two markets of the same configuration that show the same, however they came about, give the same answer to
every instruction and show the same afterwards. The exception is a cancellation that finds nothing: on one of them it may
panic. -/
theorem C63_no_hidden_state {c is1 is2} {m1 m2 : Market C} (h1 : ReachBy c is1 m1) (h2 : ReachBy c is2 m2)
    (hs : SameShow m1 m2) {i : Instr C} (hi : i.Ok) :
    (∃ s m1' m2', m1.exec i = .ok (s, m1') ∧ m2.exec i = .ok (s, m2') ∧ SameShow m1' m2') ∨
    (∃ e, m1.exec i = .error e ∧ m2.exec i = .error e) ∨
    (m1.exec i = .error (.ao .orderNotFound) ∧ m2.exec i = .error .panic) ∨
    (m1.exec i = .error .panic ∧ m2.exec i = .error (.ao .orderNotFound)) := by
  have g1 := C62_same_state h1
  have g2 := C62_same_state h2
  obtain ⟨_, _, p1⟩ := h1.known
  obtain ⟨_, _, p2⟩ := h2.known
  have e : (c.reference : RefMarket C).run is1 = (c.reference : RefMarket C).run is2 := by
    have q1 : SameParams (c.reference : RefMarket C) ((c.reference : RefMarket C).run is1) := p1
    have q2 : SameParams (c.reference : RefMarket C) ((c.reference : RefMarket C).run is2) := p2
    revert g1 g2 q1 q2
    generalize (c.reference : RefMarket C).run is1 = a1
    generalize (c.reference : RefMarket C).run is2 = a2
    intro g1 g2 q1 q2
    have b1 := q1.cap .bid; have b2 := q2.cap .bid
    have b3 := q1.cap .ask; have b4 := q2.cap .ask
    simp only [RefMarket.cap] at b1 b2 b3 b4
    cases a1; cases a2
    simp only [RefMarket.mk.injEq]
    refine ⟨?_, ?_, ?_, ?_, ?_, ?_, ?_, ?_, ?_⟩
    · exact q1.minBase.trans q2.minBase.symm
    · exact q1.tick.trans q2.tick.symm
    · exact b1.trans b2.symm
    · exact b3.trans b4.symm
    · exact q1.capEvents.trans q2.capEvents.symm
    · exact g1.seq.symm.trans (hs.seq.trans g2.seq)
    · exact g1.bids.symm.trans (hs.bids.trans g2.bids)
    · exact g1.asks.symm.trans (hs.asks.trans g2.asks)
    · exact g1.events.symm.trans (hs.events.trans g2.events)
  have a1 := C62_same_answer h1 hi
  have a2 := C62_same_answer h2 hi
  rw [e] at a1
  cases hx : ((c.reference : RefMarket C).run is2).exec i with
  | ok x =>
    rw [hx] at a1 a2
    obtain ⟨m1', k1, s1⟩ := a1
    obtain ⟨m2', k2, s2⟩ := a2
    exact .inl ⟨_, m1', m2', k1, k2, s1.bids.trans s2.bids.symm, s1.asks.trans s2.asks.symm,
      s1.events.trans s2.events.symm, s1.seq.trans s2.seq.symm⟩
  | error er =>
    rw [hx] at a1 a2
    rcases a1 with a1 | ⟨rfl, a1⟩ <;> rcases a2 with a2 | ⟨hb, a2⟩
    · exact .inr (.inl ⟨er, a1, a2⟩)
    · exact .inr (.inr (.inl ⟨hb ▸ a1, a2⟩))
    · exact .inr (.inr (.inr ⟨a1, a2⟩))
    · exact .inr (.inl ⟨_, a1, a2⟩)

/-! ### Concrete cases -/

/-- `C60_matching_exhaustive`, `C61_traded_order`: the crossing order of the demo trades with two asks, and both leave. -/
example : rounds demoTake (emitted demo demoAfter) ≠ demoTake.matchLimit ∧ demoTake.postOnly = false := by
  decide +kernel

/-- An order that takes only part of the first ask: matching stops because nothing is wanted any more, and the ask stays
with the rest. -/
def demoPart : NewOrderParams DemoCb := { demoOrder .bid 2 11 9 with postAllowed := false }

theorem demoPart_take : demo.newOrder demoPart =
    .ok (⟨none, 2, 20, 0⟩, demo.step (.newOrder demoPart)) := by decide +kernel

example := C60_matching_exhaustive demo_reachable (p := demoPart) (by decide +kernel) demoPart_take

example : ((resting (demo.step (.newOrder demoPart)) .ask).head?.map Order.qty = some 3) ∧
    rounds demoPart (emitted demo (demo.step (.newOrder demoPart))) = 1 := by decide +kernel

example := C61_traded_order demo_reachBy (p := demoPart) (by decide +kernel) demoPart_take
  (x := ⟨10 * 2 ^ 96, 5, ⟨1, 7⟩⟩) (by decide +kernel) (by decide +kernel)

example := C62_same_state demo_reachBy
example := C62_same_answer demo_reachBy demoTake_ok

/-- Two histories that lead to the same book by different ways: an ask is cancelled before or after another one is
posted, so the orders are in different slots. -/
def demoHist2 : List (Instr DemoCb) :=
  [.newOrder (demoOrder .ask 5 10 1), .newOrder (demoOrder .ask 6 11 2), .cancelOrder (10 * 2 ^ 96),
   .newOrder (demoOrder .ask 7 10 3)]

def demoHist3 : List (Instr DemoCb) :=
  [.newOrder (demoOrder .ask 5 10 1), .newOrder (demoOrder .ask 6 11 2), .newOrder (demoOrder .ask 7 10 3),
   .cancelOrder (10 * 2 ^ 96)]

theorem demo2_reachBy : ReachBy demoCfg demoHist2 ((demoCfg.market ⟨0, 0⟩).run demoHist2) :=
  ⟨demo_valid, by decide +kernel, ⟨0, 0⟩, rfl⟩
theorem demo3_reachBy : ReachBy demoCfg demoHist3 ((demoCfg.market ⟨0, 0⟩).run demoHist3) :=
  ⟨demo_valid, by decide +kernel, ⟨0, 0⟩, rfl⟩

/-- `C63_no_hidden_state` applies to the two, although they differ. -/
example : SameShow ((demoCfg.market ⟨0, 0⟩).run demoHist2) ((demoCfg.market ⟨0, 0⟩).run demoHist3) ∧
    ((demoCfg.market ⟨0, 0⟩).run demoHist2).book.asks.leafNodes ≠
      ((demoCfg.market ⟨0, 0⟩).run demoHist3).book.asks.leafNodes := by
  refine ⟨⟨?_, ?_, ?_, ?_⟩, ?_⟩ <;> decide +kernel

/-- The exception of `C63_no_hidden_state` is real: in the first market the first bid was cancelled after the second was
posted, in the second market before. They show the same, and cancelling the first bid once more panics in one and
returns `OrderNotFound` in the other. -/
def freshHist : List (Instr DemoCb) :=
  [.newOrder (demoOrder .bid 5 10 1), .cancelOrder (10 * 2 ^ 96 + (2 ^ 64 - 1)), .newOrder (demoOrder .bid 6 10 2)]

theorem C63_exception_witness :
    SameShow ((demoCfg.market ⟨0, 0⟩).run staleHist) ((demoCfg.market ⟨0, 0⟩).run freshHist) ∧
    ((demoCfg.market ⟨0, 0⟩).run staleHist).cancelOrder (10 * 2 ^ 96 + (2 ^ 64 - 1)) = .error .panic ∧
    ((demoCfg.market ⟨0, 0⟩).run freshHist).cancelOrder (10 * 2 ^ 96 + (2 ^ 64 - 1)) =
      .error (.ao .orderNotFound) := by
  refine ⟨⟨?_, ?_, ?_, ?_⟩, ?_, ?_⟩ <;> decide +kernel

end AOB
