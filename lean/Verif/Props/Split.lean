import Verif.Props.First
/-
C107: a quantity is not got for less in pieces.
-/
namespace AOB
variable {C : Type} [CallbackInfo C] {m m' : Market C} {p : NewOrderParams C} {s : OrderSummary}

/-- A value (in units of 2^-32 quote units) and what is paid for it by a taker of the side in whole quote units: rounded in favour of
the makers, by less than a unit for each of the fills. -/
def RoundedFor (side : Side) (exact quote fills : Nat) : Prop :=
  match side with
  | .bid => exact ≤ quote * 2 ^ 32 ∧ quote * 2 ^ 32 ≤ exact + fills * (2 ^ 32 - 1)
  | .ask => quote * 2 ^ 32 ≤ exact ∧ exact ≤ quote * 2 ^ 32 + fills * (2 ^ 32 - 1)

omit [CallbackInfo C] in
theorem traded_append (a b : List (Event C)) (o : Order C) : traded (a ++ b) o = traded a o + traded b o := by
  simp only [traded, fillsOf, sumBase, List.filter_append, List.map_append, List.sum_append]

omit [CallbackInfo C] in
theorem traded_no_fill {es : List (Event C)} {o : Order C} (h : ∀ e ∈ es, e.isFill = true → e.id ≠ o.id) : traded es o = 0 := by
  have : fillsOf o.id es = [] := by
    unfold fillsOf
    refine List.filter_eq_nil_iff.2 (fun e he hc => ?_)
    simp only [Bool.and_eq_true, beq_iff_eq] at hc
    exact h e he hc.1 hc.2
  unfold traded
  rw [this]
  rfl

omit [CallbackInfo C] in
/-- If all fills are about orders of a list, what they take from these is what they take. -/
theorem amount_fills {opp : List (Order C)} (hn : (opp.map Order.id).Nodup) : ∀ {es : List (Event C)},
    (∀ e ∈ es, e.isFill = true → ∃ o ∈ opp, o.id = e.id) →
    amount opp (traded es) = sumBase (fills es) ∧
    bill opp (traded es) = ((fills es).map (fun e => e.base * (e.id / 2 ^ 64))).sum
  | [], _ => ⟨amount_zero (fun o _ => traded_nil o), bill_zero (fun o _ => traded_nil o)⟩
  | .out sd i b c :: es, h => by
    obtain ⟨h1, h2⟩ := amount_fills hn (es := es) (fun e he => h e (by simp [he]))
    have e1 : fills (.out sd i b c :: es) = fills es := rfl
    rw [e1, ← h1, ← h2]
    exact ⟨amount_congr (fun o _ => traded_out ..), bill_congr (fun o _ => traded_out ..)⟩
  | .fill sd i b q mc tc :: es, h => by
    obtain ⟨h1, h2⟩ := amount_fills hn (es := es) (fun e he => h e (by simp [he]))
    have e1 : fills (.fill sd i b q mc tc :: es) = .fill sd i b q mc tc :: fills es := rfl
    obtain ⟨o, ho, hid⟩ := h _ (List.mem_cons_self ..) rfl
    have hid : o.id = i := hid
    have e2 : traded (.fill sd i b q mc tc :: es) = fun x => (if x.id = i then b else 0) + traded es x :=
      funext (fun x => traded_fill ..)
    have key : ∀ (l : List (Order C)), (l.map Order.id).Nodup →
        amount l (fun x => (if x.id = i then b else 0) + traded es x) =
          (if i ∈ l.map Order.id then b else 0) + amount l (traded es) ∧
        bill l (fun x => (if x.id = i then b else 0) + traded es x) =
          (if i ∈ l.map Order.id then b * (i / 2 ^ 64) else 0) + bill l (traded es) := by
      intro l
      induction l with
      | nil => intro _; exact ⟨rfl, rfl⟩
      | cons x l ih =>
        intro hnd
        rw [List.map_cons, List.nodup_cons] at hnd
        obtain ⟨g1, g2⟩ := ih hnd.2
        rw [amount_cons, bill_cons, amount_cons, bill_cons, g1, g2]
        by_cases hx : x.id = i
        · have hni : i ∉ l.map Order.id := hx ▸ hnd.1
          have hp : x.price = i / 2 ^ 64 := by unfold Order.price; rw [hx]
          have hm : i ∈ (x :: l).map Order.id := by rw [List.map_cons, hx]; exact List.mem_cons_self ..
          rw [if_pos hx, if_neg hni, if_pos hm, if_neg hni, if_pos hm, hp, Nat.add_mul]
          constructor <;> omega
        · have hm : i ∈ (x :: l).map Order.id ↔ i ∈ l.map Order.id := by
            rw [List.map_cons, List.mem_cons]
            exact ⟨fun h => h.resolve_left (fun e => hx e.symm), .inr⟩
          rw [if_neg hx]
          simp only [hm, Nat.zero_add]
          constructor <;> omega
    obtain ⟨g1, g2⟩ := key opp hn
    have hmem : i ∈ opp.map Order.id := List.mem_map.2 ⟨o, ho, hid⟩
    rw [if_pos hmem] at g1 g2
    rw [e1, e2, g1, g2, h1, h2]
    exact ⟨rfl, rfl⟩

/-- One transaction whose new order, if it is one, is of the side: what it leaves opposite, and what it takes. -/
theorem step_taken {c is} (h : ReachBy c is m) (hlen : is.length < 2 ^ 63) {i : Instr C} (hi : i.Ok) {side : Side}
    (hs : ∀ q, i = .newOrder q → q.side = side) :
    (∀ x ∈ resting (m.step i) side.opposite, ∃ y ∈ resting m side.opposite, y.id = x.id ∧ y.cb = x.cb ∧
      x.qty + traded (stepLog m i).events y ≤ y.qty) ∧
    (∀ o ∈ resting m side.opposite, traded (stepLog m i).events o ≤ o.qty) ∧
    (∀ e ∈ (stepLog m i).events, e.isFill = true → (∃ o ∈ resting m side.opposite, o.id = e.id ∧ o.cb = e.makerCb) ∧
      (∃ q, i = .newOrder q ∧ (q.selfTradeBehavior ≠ .decrementTake →
        CallbackInfo.asCallbackId q.callbackInfo ≠ CallbackInfo.asCallbackId e.makerCb)) ∧
      RoundedFor side (e.base * (e.id / 2 ^ 64)) e.quote 1) := by
  by_cases hno : ∀ p, i ≠ .newOrder p
  · have he : (stepLog m i).events = [] := by
      cases i with
      | newOrder p => exact absurd rfl (hno p)
      | cancelOrder id => simp only [stepLog]; split <;> rfl
      | massCancelOrders ids => simp only [stepLog]; split <;> rfl
      | consumeEvents n => simp only [stepLog]; split <;> rfl
    rw [he]
    exact ⟨fun x hx => ⟨x, step_kept h hlen hno hx, rfl, rfl, by rw [traded_nil]; exact Nat.le_refl _⟩,
      fun o _ => by rw [traded_nil]; exact Nat.zero_le _, fun e he => by cases he⟩
  · push Not at hno
    obtain ⟨q, rfl⟩ := hno
    obtain rfl := hs q rfl
    cases he : m.newOrder q with
    | error e =>
      have h1 : m.step (.newOrder q) = m := by simp only [Market.step, Market.exec, he]; rfl
      have h2 : (stepLog m (.newOrder q)).events = [] := by simp only [stepLog, he]
      rw [h1, h2]
      exact ⟨fun x hx => ⟨x, hx, rfl, rfl, by rw [traded_nil]; exact Nat.le_refl _⟩,
        fun o _ => by rw [traded_nil]; exact Nat.zero_le _, fun e he => by cases he⟩
    | ok r =>
      obtain ⟨s, m'⟩ := r
      have h1 : m.step (.newOrder q) = m' := by simp only [Market.step, Market.exec, he, ok_bind]
      have h2 : (stepLog m (.newOrder q)).events = emitted m m' := by simp only [stepLog, he]
      rw [h1, h2]
      have hal := (C85_fills_allocate h.reachable hi he).1
      refine ⟨fun x hx => ?_, hal.le, fun e hm hf => ⟨?_, ⟨q, rfl, fun hb => C16_no_self_trade h.reachable hi he hb hm hf⟩, ?_⟩⟩
      · rcases C48_nothing_appears h.reachable hi he _ hx with ⟨z, hz, f1, f2, f3⟩ | ⟨f1, _⟩
        · refine ⟨z, hz, f1, f2, ?_⟩
          have := hal.le z hz
          unfold traded at this ⊢
          omega
        · cases hq : q.side <;> rw [hq] at f1 <;> cases f1
      · obtain ⟨_, _, es, _, _, _, _, hst, _, _, _, hfi, _⟩ := best_view h.reachable hi he
        have : e ∈ fills es := by rw [← hfi]; exact List.mem_filter.2 ⟨hm, hf⟩
        obtain ⟨o, ho, e1, e2, _⟩ := hst.named e (List.mem_filter.1 this).1
        exact ⟨o, ho, e1.symm, e2.symm⟩
      · cases e with
        | out => cases hf
        | fill ts id b qt mc tc =>
          have := C50_rounding h.reachable hi he hm
          unfold RoundedFor
          simp only [Event.base, Event.quote, Event.id]
          cases hq : q.side <;> rw [hq] at this <;> dsimp only at this ⊢ <;> omega

/-- The same for a list of transactions. -/
theorem run_fills {side : Side} : ∀ {js : List (Instr C)} {is : List (Instr C)} {m : Market C} {c : Config},
    ReachBy c is m → is.length + js.length ≤ 2 ^ 63 → (∀ i ∈ js, i.Ok) → (∀ q, .newOrder q ∈ js → q.side = side) →
    ∀ e ∈ (runLog m js).events, e.isFill = true → (∃ o ∈ resting m side.opposite, o.id = e.id ∧ o.cb = e.makerCb) ∧
      (∃ q, .newOrder q ∈ js ∧ (q.selfTradeBehavior ≠ .decrementTake →
        CallbackInfo.asCallbackId q.callbackInfo ≠ CallbackInfo.asCallbackId e.makerCb)) ∧
      RoundedFor side (e.base * (e.id / 2 ^ 64)) e.quote 1 := by
  intro js
  induction js with
  | nil => intro is m c _ _ _ _ e he; cases he
  | cons i js ih =>
    intro is m c h hl hj hs e he hf
    rw [List.length_cons] at hl
    have hi : i.Ok := hj i (by simp)
    obtain ⟨g1, _, g3⟩ := step_taken h (by omega) hi (side := side) (fun q hq => hs q (by simp [hq]))
    rcases List.mem_append.1 he with he | he
    · obtain ⟨k1, ⟨q, hq, k2⟩, k3⟩ := g3 e he hf
      exact ⟨k1, ⟨q, by simp [hq], k2⟩, k3⟩
    · obtain ⟨⟨x, hx, e1, e2⟩, ⟨q, hq, k2⟩, k3⟩ := ih (h.step hi) (by rw [List.length_append, List.length_singleton]; omega)
        (fun j hj' => hj j (List.mem_cons_of_mem _ hj')) (fun q hq => hs q (List.mem_cons_of_mem _ hq)) e he hf
      obtain ⟨y, hy, f1, f2, _⟩ := g1 x hx
      exact ⟨⟨y, hy, f1.trans e1, f2.trans e2⟩, ⟨q, List.mem_cons_of_mem _ hq, k2⟩, k3⟩

theorem run_taken {side : Side} : ∀ {js : List (Instr C)} {is : List (Instr C)} {m : Market C} {c : Config},
    ReachBy c is m → is.length + js.length ≤ 2 ^ 63 → (∀ i ∈ js, i.Ok) → (∀ q, .newOrder q ∈ js → q.side = side) →
    ∀ o ∈ resting m side.opposite, traded (runLog m js).events o ≤ o.qty := by
  intro js
  induction js with
  | nil => intro is m c _ _ _ _ o _; exact Nat.zero_le _
  | cons i js ih =>
    intro is m c h hl hj hs o ho
    rw [List.length_cons] at hl
    have hi : i.Ok := hj i (by simp)
    obtain ⟨g1, g2, _⟩ := step_taken h (by omega) hi (side := side) (fun q hq => hs q (by simp [hq]))
    have hl' : (is ++ [i]).length + js.length ≤ 2 ^ 63 := by rw [List.length_append, List.length_singleton]; omega
    have hj' : ∀ j ∈ js, j.Ok := fun j hj' => hj j (List.mem_cons_of_mem _ hj')
    have hs' : ∀ q, .newOrder q ∈ js → q.side = side := fun q hq => hs q (List.mem_cons_of_mem _ hq)
    show traded ((stepLog m i).events ++ (runLog (m.step i) js).events) o ≤ o.qty
    rw [traded_append]
    by_cases hx : ∃ x ∈ resting (m.step i) side.opposite, x.id = o.id
    · obtain ⟨x, hx, e1⟩ := hx
      have k1 := ih (h.step hi) hl' hj' hs' x hx
      obtain ⟨y, hy, f1, _, f3⟩ := g1 x hx
      obtain rfl : y = o := by
        obtain ⟨a, ha⟩ := h.reachable.known
        have hn := ha.inv.nodup side.opposite
        rw [← ha.rep.resting] at hn
        exact List.inj_on_of_nodup_map hn hy ho (f1.trans e1)
      have : traded (runLog (m.step i) js).events y = traded (runLog (m.step i) js).events x := by
        unfold traded; rw [f1]
      omega
    · have : traded (runLog (m.step i) js).events o = 0 := by
        refine traded_no_fill (fun e he hf heq => hx ?_)
        obtain ⟨⟨x, hx, e1, _⟩, _⟩ := run_fills (h.step hi) hl' hj' hs' e he hf
        exact ⟨x, hx, e1.trans heq⟩
      have := g2 o ho
      omega

omit [CallbackInfo C] in
/-- Roundings add up. -/
theorem sum_rounding {side : Side} : ∀ {l : List (Event C)},
    (∀ e ∈ l, RoundedFor side (e.base * (e.id / 2 ^ 64)) e.quote 1) →
    RoundedFor side (l.map (fun e => e.base * (e.id / 2 ^ 64))).sum (sumQuote l) l.length
  | [], _ => by cases side <;> simp [RoundedFor, sumQuote]
  | e :: l, h => by
    have h1 := sum_rounding (side := side) (l := l) (fun x hx => h x (by simp [hx]))
    have h2 := h e (by simp)
    have e1 : sumQuote (e :: l) = e.quote + sumQuote l := by simp [sumQuote]
    rw [e1]
    rw [List.map_cons, List.sum_cons, List.length_cons]
    unfold RoundedFor at h1 h2 ⊢
    generalize (2 : Nat) ^ 32 = k at h1 h2 ⊢
    generalize (l.map (fun e => e.base * (e.id / 2 ^ 64))).sum = x at h1 ⊢
    generalize e.base * (e.id / 2 ^ 64) = y at h2 ⊢
    rw [Nat.add_mul, Nat.add_mul]
    cases side <;> dsimp only at h1 h2 ⊢ <;> constructor <;> omega

section
variable {c : Config} {is js : List (Instr C)} (h : ReachBy c is m) (hlen : is.length + js.length ≤ 2 ^ 63)
  (hj : ∀ i ∈ js, i.Ok)
include h hlen hj

/-- C107. What new orders of one side trade in all, in any number, by whomever, and with cancellations and consumption between,
is taken from the orders that rested opposite to them at the start: from none more than it had, in all what the fills say;
what is paid is the exact value of it, less than one quote unit per fill aside, in favour of the makers. -/
theorem C107_taken {side : Side} (hs : ∀ q, .newOrder q ∈ js → q.side = side) :
    let es := (runLog m js).events
    let opp := resting m side.opposite
    (∀ o ∈ opp, traded es o ≤ o.qty) ∧ amount opp (traded es) = sumBase (fills es) ∧
    RoundedFor side (bill opp (traded es)) (sumQuote (fills es)) (fills es).length := by
  intro es opp
  have hn : (opp.map Order.id).Nodup := by
    obtain ⟨a, ha⟩ := h.reachable.known
    have hn := ha.inv.nodup side.opposite
    rwa [← ha.rep.resting] at hn
  have hf := run_fills h hlen hj hs
  obtain ⟨h1, h2⟩ := amount_fills hn (es := es) (fun e he hf' => by
    obtain ⟨⟨o, ho, e1, _⟩, _⟩ := hf e he hf'
    exact ⟨o, ho, e1⟩)
  refine ⟨run_taken h hlen hj hs, h1, ?_⟩
  rw [h2]
  exact sum_rounding (fun e he => (hf e (List.mem_filter.1 he).1 (List.mem_filter.1 he).2).2.2)

omit hlen hj in
/-- Who does not trade with themselves in the pieces takes nothing from their own orders. -/
theorem own_pieces (hlen : is.length + js.length ≤ 2 ^ 63) (hj : ∀ i ∈ js, i.Ok)
    (hs : ∀ q, .newOrder q ∈ js → q.side = p.side)
    (hown : p.selfTradeBehavior ≠ .decrementTake → ∀ q, .newOrder q ∈ js → q.selfTradeBehavior ≠ .decrementTake ∧
      CallbackInfo.asCallbackId q.callbackInfo = CallbackInfo.asCallbackId p.callbackInfo) :
    Allocation p (resting m p.side.opposite) (traded (runLog m js).events) := by
  refine ⟨run_taken h hlen hj hs, fun hb o ho hc => traded_no_fill (fun e he hf heq => ?_)⟩
  obtain ⟨⟨x, hx, e1, e2⟩, ⟨q, hq, k2⟩, _⟩ := run_fills h hlen hj hs e he hf
  obtain ⟨a, ha⟩ := h.reachable.known
  have hn := ha.inv.nodup p.side.opposite
  rw [← ha.rep.resting] at hn
  obtain rfl : x = o := List.inj_on_of_nodup_map hn hx ho (e1.trans heq)
  obtain ⟨q1, q2⟩ := hown hb q hq
  exact k2 q1 (by rw [q2, hc, e2])

/-- C107. Who buys a quantity by one order does not pay a larger exact value than by any number of orders that get as much in
all, whatever their limits and caps; and in quote units not more but for the rounding of each fill. -/
theorem C107_buyer (hs : ∀ q, .newOrder q ∈ js → q.side = .bid) (hp : (Instr.newOrder p).Ok) (hb : p.side = .bid)
    (hown : p.selfTradeBehavior ≠ .decrementTake → ∀ q, .newOrder q ∈ js → q.selfTradeBehavior ≠ .decrementTake ∧
      CallbackInfo.asCallbackId q.callbackInfo = CallbackInfo.asCallbackId p.callbackInfo)
    (he : m.newOrder p = .ok (s, m')) (hbase : sumBase (fills (emitted m m')) ≤ sumBase (fills (runLog m js).events)) :
    bill (resting m .ask) (traded (emitted m m')) ≤ bill (resting m .ask) (traded (runLog m js).events) ∧
    sumQuote (fills (emitted m m')) * 2 ^ 32 ≤
      sumQuote (fills (runLog m js).events) * 2 ^ 32 + (fills (emitted m m')).length * (2 ^ 32 - 1) := by
  obtain ⟨_, h2, h3⟩ := C107_taken h hlen hj hs
  have ha := own_pieces h hlen hj (p := p) (by rw [hb]; exact hs) hown
  have := C85_buyer h.reachable hp he hb (by rw [hb] at ha; exact ha) (by rw [← h2] at hbase; exact hbase)
  simp only [Side.opposite, RoundedFor] at h3
  omega

/-- C107. Who sells a quantity by one order, with a quote cap that covers it, does not get a smaller exact value than by any
number of orders that sell as much in all; and in quote units not less but for the rounding of each fill. -/
theorem C107_seller (hs : ∀ q, .newOrder q ∈ js → q.side = .ask) (hp : (Instr.newOrder p).Ok) (hb : p.side = .ask)
    (hown : p.selfTradeBehavior ≠ .decrementTake → ∀ q, .newOrder q ∈ js → q.selfTradeBehavior ≠ .decrementTake ∧
      CallbackInfo.asCallbackId q.callbackInfo = CallbackInfo.asCallbackId p.callbackInfo)
    (hcap : ∀ o ∈ resting m .bid, p.maxBaseQty * o.price ≤ p.maxQuoteQty * 2 ^ 32)
    (he : m.newOrder p = .ok (s, m')) (hbase : sumBase (fills (runLog m js).events) = sumBase (fills (emitted m m'))) :
    bill (resting m .bid) (traded (runLog m js).events) ≤ bill (resting m .bid) (traded (emitted m m')) ∧
    sumQuote (fills (runLog m js).events) * 2 ^ 32 ≤
      sumQuote (fills (emitted m m')) * 2 ^ 32 + (fills (emitted m m')).length * (2 ^ 32 - 1) := by
  obtain ⟨_, h2, h3⟩ := C107_taken h hlen hj hs
  have ha := own_pieces h hlen hj (p := p) (by rw [hb]; exact hs) hown
  have := C85_seller h.reachable hp he hb hcap (by rw [hb] at ha; exact ha) (by rw [← h2] at hbase; exact hbase)
  simp only [Side.opposite, RoundedFor] at h3
  omega

end

/-! ### Concrete cases -/

/-- User 9 buys 4, then 6, with others' consumption between, instead of 10. -/
def pieces9 : List (Instr DemoCb) :=
  [.newOrder (demoOnly .bid 4 11 9), .consumeEvents 2, .newOrder (demoOnly .bid 6 11 9)]

theorem pieces9_buy : ∀ q, .newOrder q ∈ pieces9 → q = demoOnly .bid 4 11 9 ∨ q = demoOnly .bid 6 11 9 := by
  intro q hq
  simpa only [pieces9, List.mem_cons, Instr.newOrder.injEq, reduceCtorEq, List.not_mem_nil, or_false, false_or] using hq
theorem demo_whole9 : demo.newOrder (demoOnly .bid 10 11 9) =
    .ok (⟨none, 10, 100, 0⟩, demo.step (.newOrder (demoOnly .bid 10 11 9))) := by decide +kernel

example := C107_taken demo_reachBy (js := pieces9) (by decide) (by decide)
  (side := .bid) (fun q hq => by rcases pieces9_buy q hq with rfl | rfl <;> rfl)
example := C107_buyer demo_reachBy (js := pieces9) (by decide) (by decide)
  (fun q hq => by rcases pieces9_buy q hq with rfl | rfl <;> rfl) (by decide) rfl
  (fun _ q hq => by rcases pieces9_buy q hq with rfl | rfl <;> decide) demo_whole9 (by decide +kernel)

/-- User 9 sells 3 and 5 instead of 8. -/
def pieces8 : List (Instr DemoCb) := [.newOrder (demoOnly .ask 3 8 9), .newOrder (demoOnly .ask 5 8 9)]

theorem pieces8_sell : ∀ q, .newOrder q ∈ pieces8 → q = demoOnly .ask 3 8 9 ∨ q = demoOnly .ask 5 8 9 := by
  intro q hq
  simpa only [pieces8, List.mem_cons, Instr.newOrder.injEq, List.not_mem_nil, or_false] using hq
theorem demo_whole8 : demo.newOrder (demoOnly .ask 8 8 9) =
    .ok (⟨none, 8, 72, 0⟩, demo.step (.newOrder (demoOnly .ask 8 8 9))) := by decide +kernel

example := C107_seller demo_reachBy (js := pieces8) (by decide) (by decide)
  (fun q hq => by rcases pieces8_sell q hq with rfl | rfl <;> rfl) (by decide) rfl
  (fun _ q hq => by rcases pieces8_sell q hq with rfl | rfl <;> decide) (by decide +kernel) demo_whole8 (by decide +kernel)

/-- C107: the rounding can make one order dearer by a quote unit than two. 10 and 20 are offered at a little more than 1/10. Who buys
18 pays 2 for the 10 and 1 for 8 of the 20. Who buys 9 and again 9 pays 1 for 9 of the 10, the rest of which is given up, and 1 for
9 of the 20. -/
theorem C107_rounding_witness :
    let m := (({ minBase := 2, tick := 1, capBids := 3, capAsks := 3, capEvents := 12 } : Config).market ⟨0, 0⟩).run
      [.newOrder { demoOrder .ask 10 1 1 with limitPrice := 2 ^ 32 / 10 + 1 }, .newOrder { demoOrder .ask 20 1 2 with limitPrice := 2 ^ 32 / 10 + 1 }]
    (m.newOrder (demoOnly .bid 18 1 9)).map (fun x => x.1) = .ok ⟨none, 18, 3, 0⟩ ∧
    (m.newOrder (demoOnly .bid 9 1 9)).map (fun x => x.1) = .ok ⟨none, 9, 1, 0⟩ ∧
    ((m.run [.newOrder (demoOnly .bid 9 1 9)]).newOrder (demoOnly .bid 9 1 9)).map (fun x => x.1) = .ok ⟨none, 9, 1, 0⟩ := by
  decide +kernel

end AOB
