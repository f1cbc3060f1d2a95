import Verif.Proofs.Count
import Verif.Props.History
import Verif.Spec.Demo
/-
C96: how many trades and events there can be. C97: what an order is paid, or pays, over its whole life.
-/
namespace AOB
variable {C : Type} [CallbackInfo C] {m m' : Market C} {p : NewOrderParams C} {s : OrderSummary} {c : Config}
  {is : List (Instr C)} {L : Log C}

/-- C96. Of the trades of one order at most one (for a seller: at most two) leaves the resting order on the book: there are
not more fills than out events of the other side, plus one or two. -/
theorem C96_one_order (h : Reachable m) (hp : (Instr.newOrder p).Ok) (he : m.newOrder p = .ok (s, m')) :
    (fills (emitted m m')).length ≤ (outsFrom p.side.opposite (emitted m m')).length + p.side.spare := by
  obtain ⟨a, a', n, r, ex, v⟩ := h.view hp he
  rw [v.fills, v.em, outsFrom_append, List.length_append]
  have := v.ok.steps.fills_le_outs v.known.minBase
  omega

/-- C96. A buyer trades with each resting order at most once, a seller at most twice. -/
theorem C96_same_order (h : Reachable m) (hp : (Instr.newOrder p).Ok) (he : m.newOrder p = .ok (s, m')) (id : Nat) :
    (fillsOf id (emitted m m')).length ≤ (match p.side with | .bid => 1 | .ask => 2) := by
  obtain ⟨a, a', n, r, ex, v⟩ := h.view hp he
  have hx : fillsOf id ex = [] := by
    unfold fillsOf
    rw [List.filter_eq_nil_iff]
    intro e he
    obtain ⟨w, _, rfl⟩ := v.ex_own e he
    simp [Event.isFill]
  rw [v.em, fillsOf_append, hx, List.append_nil]
  have := v.ok.steps.fillsOf_le v.known.minBase (v.known.inv.nodup _) id
  cases hs : p.side <;> rw [hs] at this <;> exact this

/-! ### Histories -/

theorem HistoryOf.snoc {i : Instr C} (h : HistoryOf c (is ++ [i]) m L) :
    ∃ m0 L0, HistoryOf c is m0 L0 ∧ m = m0.step i ∧ L = L0.append (stepLog m0 i) ∧ i.Ok := by
  obtain ⟨hv, hok, c0, rfl, rfl⟩ := h
  refine ⟨_, _, ⟨hv, fun j hj => hok j (by simp [hj]), c0, rfl, rfl⟩, by simp [Market.run], runLog_snoc _ _ _,
    hok i (by simp)⟩

/-- A step that logs something about orders or events is a successful new order. -/
theorem stepLog_cases (m : Market C) (i : Instr C) :
    (∃ p s m', i = .newOrder p ∧ m.newOrder p = .ok (s, m') ∧ (stepLog m i).posted = postedBy p s ∧
      (stepLog m i).events = emitted m m') ∨ ((stepLog m i).posted = [] ∧ (stepLog m i).events = []) := by
  cases i with
  | newOrder p =>
    cases he : m.newOrder p with
    | error e => right; simp only [stepLog, he]; exact ⟨trivial, trivial⟩
    | ok x =>
      obtain ⟨s, m'⟩ := x
      left
      exact ⟨p, s, m', rfl, he, by simp only [stepLog, he], by simp only [stepLog, he]⟩
  | cancelOrder id => right; cases he : m.cancelOrder id <;> simp only [stepLog, he] <;> exact ⟨trivial, trivial⟩
  | massCancelOrders ids =>
    right; cases he : m.massCancelOrders ids <;> simp only [stepLog, he] <;> exact ⟨trivial, trivial⟩
  | consumeEvents n => right; cases he : m.consumeEvents n <;> simp only [stepLog, he] <;> exact ⟨trivial, trivial⟩

omit [CallbackInfo C] in
theorem newOrders_append : ∀ (a b : List (Instr C)), newOrders (a ++ b) = newOrders a + newOrders b
  | [], b => by simp [newOrders]
  | i :: a, b => by
    have := newOrders_append a b
    cases i <;> simp only [List.cons_append, newOrders] <;> omega

omit [CallbackInfo C] in
theorem outsFrom_le (side : Side) (es : List (Event C)) : (outsFrom side es).length ≤ (es.filter Event.isOut).length := by
  unfold outsFrom
  rw [← List.countP_eq_length_filter, ← List.countP_eq_length_filter]
  exact List.countP_mono_left (fun e _ h => by simp only [Bool.and_eq_true] at h; exact h.1)

omit [CallbackInfo C] in
theorem events_length (es : List (Event C)) : es.length = (fills es).length + (es.filter Event.isOut).length := by
  induction es with
  | nil => rfl
  | cons e es ih =>
    cases e with
    | fill =>
      rw [fills_fill, List.filter_cons_of_neg (by simp [Event.isOut]), List.length_cons, List.length_cons]
      omega
    | out =>
      rw [fills_out, List.filter_cons_of_pos (by simp [Event.isOut]), List.length_cons, List.length_cons]
      omega

theorem HistoryOf.counts (h : HistoryOf c is m L) :
    (fills L.events).length ≤ (L.events.filter Event.isOut).length + 2 * newOrders is ∧
    L.posted.length ≤ newOrders is := by
  induction is using List.reverseRecOn generalizing m L with
  | nil =>
    obtain ⟨_, _, c0, _, rfl⟩ := h
    exact ⟨Nat.zero_le _, Nat.zero_le _⟩
  | append_singleton is i ih =>
    obtain ⟨m0, L0, h0, rfl, rfl, hi⟩ := h.snoc
    obtain ⟨i1, i2⟩ := ih h0
    rw [newOrders_append]
    simp only [Log.append, fills_append, List.filter_append, List.length_append]
    rcases stepLog_cases m0 i with ⟨p, s, m', rfl, he, e1, e2⟩ | ⟨e1, e2⟩
    · rw [e1, e2]
      have h1 := C96_one_order h0.reachBy.reachable hi he
      have h2 := outsFrom_le p.side.opposite (emitted m0 m')
      have h3 : p.side.spare ≤ 2 := by cases p.side <;> decide
      have h4 : (postedBy p s).length ≤ 1 := by unfold postedBy; split <;> simp
      have h5 : newOrders [Instr.newOrder p] = 1 := rfl
      omega
    · rw [e1, e2]
      simp only [fills_nil, List.filter_nil, List.length_nil]
      omega

omit [CallbackInfo C] in
theorem count_ofId (l : List (Order C)) (id : Nat) : (l.map Order.id).count id = (ofId id l).length := by
  unfold ofId
  rw [← List.countP_eq_length_filter, List.count, List.countP_map]
  rfl

omit [CallbackInfo C] in
theorem count_outsOf (es : List (Event C)) (id : Nat) :
    ((es.filter Event.isOut).map Event.id).count id = (outsOf id es).length := by
  unfold outsOf
  rw [← List.countP_eq_length_filter, List.count, List.countP_map, List.countP_filter]
  apply List.countP_congr
  intro e _
  simp [and_comm]

/-- C96. Over a whole history: every order posted leaves the book by one out event or one cancellation, or still rests; there
are at most two fills more than out events for each new order; and so at most four events for each new order. -/
theorem C96_history (h : HistoryOf c is m L) (hlen : is.length ≤ 2 ^ 63) :
    (L.events.filter Event.isOut).length + L.cancelled.length + (allResting m).length = L.posted.length ∧
    (fills L.events).length ≤ (L.events.filter Event.isOut).length + 2 * newOrders is ∧
    L.posted.length ≤ newOrders is ∧ L.events.length ≤ 4 * newOrders is := by
  obtain ⟨h1, h2⟩ := h.counts
  have h3 : (L.events.filter Event.isOut).length + L.cancelled.length + (allResting m).length = L.posted.length := by
    have hp : (L.posted.map Order.id).Perm ((L.events.filter Event.isOut).map Event.id ++
        (L.cancelled.map Order.id ++ (allResting m).map Order.id)) := by
      rw [List.perm_iff_count]
      intro id
      rw [List.count_append, List.count_append, count_ofId, count_ofId, count_ofId, count_outsOf]
      have := (h.inv hlen).cnt id
      omega
    have := hp.length_eq
    simp only [List.length_append, List.length_map] at this
    omega
  have h4 := events_length L.events
  refine ⟨h3, h1, h2, ?_⟩
  omega

/-! ### The life of an order -/

/-- A fill is valued at the price in the id of the resting order, rounded in favour of that order. -/
theorem HistoryOf.fill_value (h : HistoryOf c is m L) (hlen : is.length ≤ 2 ^ 63) :
    ∀ e ∈ L.events, e.isFill = true → match sideOfId e.id with
      | .ask => e.base * (e.id / 2 ^ 64) ≤ e.quote * 2 ^ 32 ∧ e.quote * 2 ^ 32 < e.base * (e.id / 2 ^ 64) + 2 ^ 32
      | .bid => e.quote * 2 ^ 32 ≤ e.base * (e.id / 2 ^ 64) ∧ e.base * (e.id / 2 ^ 64) < e.quote * 2 ^ 32 + 2 ^ 32 := by
  induction is using List.reverseRecOn generalizing m L with
  | nil =>
    obtain ⟨_, _, c0, _, rfl⟩ := h
    exact fun e he => by cases he
  | append_singleton is i ih =>
    rw [List.length_append, List.length_singleton] at hlen
    obtain ⟨m0, L0, h0, rfl, rfl, hi⟩ := h.snoc
    intro e he hf
    rcases List.mem_append.1 he with he | he
    · exact ih h0 (by omega) e he hf
    rcases stepLog_cases m0 i with ⟨p, s, m', rfl, hn, _, e2⟩ | ⟨_, e2⟩
    · rw [e2] at he
      obtain ⟨a, a', n, r, ex, v⟩ := h0.reachBy.reachable.view hi hn
      obtain ⟨o, ho, e1, _, _⟩ := v.ok.steps.named e (v.mem_fill he hf)
      rw [← v.rest] at ho
      have hs := C11_resting_side h0.reachBy (by omega) ho
      rw [sideOfId_eq, ← e1] at hs
      rw [hs]
      cases e with
      | out => cases hf
      | fill ts id base quote mc tc =>
        have := C50_rounding h0.reachBy.reachable hi hn he
        cases hp : p.side <;> rw [hp] at this <;> exact this
    · rw [e2] at he; cases he

private theorem lifetime_step {a b z x y : Nat} (h : a ≤ b ∧ b ≤ a + z * (2 ^ 32 - 1)) (k : x ≤ y ∧ y < x + 2 ^ 32) :
    x + a ≤ y + b ∧ y + b ≤ x + a + (z * (2 ^ 32 - 1) + (2 ^ 32 - 1)) := by
  have k2 : y ≤ x + (2 ^ 32 - 1) := by omega
  generalize z * (2 ^ 32 - 1) = v at *
  generalize 2 ^ 32 - 1 = w at *
  omega

/-- C97. Take all fills of one order over its whole life, however many there are. A seller has received for what was sold at
least its price, and less than one quote unit more per fill; a buyer has paid at most its price, and less than one quote
unit less per fill. -/
theorem C97_lifetime_price (h : HistoryOf c is m L) (hlen : is.length ≤ 2 ^ 63) (id : Nat) :
    match sideOfId id with
    | .ask => sumBase (fillsOf id L.events) * (id / 2 ^ 64) ≤ sumQuote (fillsOf id L.events) * 2 ^ 32 ∧
        sumQuote (fillsOf id L.events) * 2 ^ 32 ≤
          sumBase (fillsOf id L.events) * (id / 2 ^ 64) + (fillsOf id L.events).length * (2 ^ 32 - 1)
    | .bid => sumQuote (fillsOf id L.events) * 2 ^ 32 ≤ sumBase (fillsOf id L.events) * (id / 2 ^ 64) ∧
        sumBase (fillsOf id L.events) * (id / 2 ^ 64) ≤
          sumQuote (fillsOf id L.events) * 2 ^ 32 + (fillsOf id L.events).length * (2 ^ 32 - 1) := by
  have key := h.fill_value hlen
  have hall : ∀ e ∈ fillsOf id L.events, e ∈ L.events ∧ e.isFill = true ∧ e.id = id := by
    intro e he
    unfold fillsOf at he
    rw [List.mem_filter, Bool.and_eq_true, beq_iff_eq] at he
    exact he
  revert hall
  generalize fillsOf id L.events = l
  intro hall
  generalize hpr : id / 2 ^ 64 = price
  cases hs : sideOfId id with
  | ask =>
    induction l with
    | nil => simp
    | cons e l ih =>
      have ih := ih (fun x hx => hall x (List.mem_cons_of_mem _ hx))
      obtain ⟨h1, h2, h3⟩ := hall e List.mem_cons_self
      have k := key e h1 h2
      rw [h3, hs, hpr] at k
      simp only at ih k ⊢
      rw [sumBase_cons, sumQuote_cons, Nat.add_mul, Nat.add_mul, List.length_cons, Nat.add_mul, Nat.one_mul]
      generalize sumBase l * price = B at *
      generalize e.base * price = x at *
      generalize sumQuote l = Q at *
      generalize e.quote = y at *
      generalize l.length = n at *
      clear hall key h hpr
      exact lifetime_step ih k
  | bid =>
    induction l with
    | nil => simp
    | cons e l ih =>
      have ih := ih (fun x hx => hall x (List.mem_cons_of_mem _ hx))
      obtain ⟨h1, h2, h3⟩ := hall e List.mem_cons_self
      have k := key e h1 h2
      rw [h3, hs, hpr] at k
      simp only at ih k ⊢
      rw [sumBase_cons, sumQuote_cons, Nat.add_mul, Nat.add_mul, List.length_cons, Nat.add_mul, Nat.one_mul]
      generalize sumBase l * price = B at *
      generalize e.base * price = x at *
      generalize sumQuote l = Q at *
      generalize e.quote = y at *
      generalize l.length = n at *
      clear hall key h hpr
      exact lifetime_step ih k

/-! ### Concrete cases -/

example := C96_one_order demo_reachable demoTake_ok demo_take
example := C96_same_order demo_reachable demoTake_ok demo_take (10 * 2 ^ 96)
example := C96_history demo_history (by decide)
example := C97_lifetime_price demo_history (by decide) (11 * 2 ^ 96 + 1)

/-- Two fills, two out events of the other side; and a buyer who leaves the order they meet on the book. -/
example : (fills (emitted demo demoAfter)).length = 2 ∧ (outsFrom .ask (emitted demo demoAfter)).length = 3 ∧
    (outsFrom .bid (emitted demo demoAfter)).length = 1 := by decide +kernel

def quarterCfg : Config := { demoCfg with tick := 2 ^ 30 }

/-- A bid for 10 at 1.75, and a sale of at most 5 for at most 3 quote units. -/
def quarterBid : NewOrderParams DemoCb := { demoOrder .bid 10 0 1 with limitPrice := 7 * 2 ^ 30 }
def quarterTake : NewOrderParams DemoCb := { demoOrder .ask 5 1 2 with maxQuoteQty := 3 }

/-- C96. The bounds are reached. A seller may trade twice in a row with the same resting bid, which stays on the book: 3
quote units pay for one base unit at 1.75, for which only 1 is taken; the 2 left pay for one more. A buyer trades once with
an order that stays. -/
theorem C96_spare_witness :
    let m0 := (quarterCfg.market ⟨0, 0⟩).run [.newOrder quarterBid]
    let m1 := m0.step (.newOrder quarterTake)
    (emitted m0 m1).map (fun e => (e.isFill, e.base, e.quote, e.id)) =
      [(true, 1, 1, 7 * 2 ^ 94 + (2 ^ 64 - 1)), (true, 1, 1, 7 * 2 ^ 94 + (2 ^ 64 - 1))] ∧
    (resting m1 .bid).map (fun o => (o.id, o.qty)) = [(7 * 2 ^ 94 + (2 ^ 64 - 1), 8)] ∧
    (fills (emitted demo (demo.step (.newOrder (demoOrder .bid 2 10 8))))).length = 1 ∧
    outsFrom .ask (emitted demo (demo.step (.newOrder (demoOrder .bid 2 10 8)))) = [] := by
  decide +kernel

/-- C97. The rounding is not in proportion to the trade: sold in two parts, 2 at 1.75 bring 2, sold at once they bring 3. -/
theorem C97_parts_witness :
    let m0 := (quarterCfg.market ⟨0, 0⟩).run [.newOrder quarterBid]
    let sell := fun n => Instr.newOrder { demoOrder .ask n 1 2 with postAllowed := false }
    sumQuote (pending (m0.run [sell 1, sell 1])) = 2 ∧ sumQuote (pending (m0.run [sell 2])) = 3 := by
  decide +kernel

end AOB
