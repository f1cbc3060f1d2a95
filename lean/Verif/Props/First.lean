import Verif.Props.Compete
import Verif.Props.Place
/-
C103: who comes first is not worse off than who comes later.
-/
namespace AOB
variable {C : Type} [CallbackInfo C] {m m₁' m₂' : Market C} {p : NewOrderParams C} {s₁ s₂ : OrderSummary}

/-- What rests opposite to new orders of one side rested there before, with no less. -/
theorem run_left {side : Side} {x : Order C} : ∀ {js : List (Instr C)} {is : List (Instr C)} {m : Market C} {c : Config},
    ReachBy c is m → is.length + js.length ≤ 2 ^ 63 → (∀ i ∈ js, i.Ok) → (∀ q, .newOrder q ∈ js → q.side = side) →
    x ∈ resting (m.run js) side.opposite → ∃ y ∈ resting m side.opposite, y.id = x.id ∧ x.qty ≤ y.qty := by
  intro js
  induction js with
  | nil => intro is m c _ _ _ _ hx; exact ⟨x, hx, rfl, Nat.le_refl _⟩
  | cons i js ih =>
    intro is m c h hl hj hs hx
    rw [List.length_cons] at hl
    have hi : i.Ok := hj i (by simp)
    obtain ⟨y, hy, e1, e2⟩ := ih (h.step hi) (by rw [List.length_append, List.length_singleton]; omega)
      (fun j hj' => hj j (List.mem_cons_of_mem _ hj')) (fun q hq => hs q (List.mem_cons_of_mem _ hq)) hx
    by_cases hno : ∀ p, i ≠ .newOrder p
    · exact ⟨y, step_kept h (by omega) hno hy, e1, e2⟩
    · push Not at hno
      obtain ⟨q, rfl⟩ := hno
      cases he : m.newOrder q with
      | error e =>
        have : m.step (.newOrder q) = m := by simp only [Market.step, Market.exec, he]; rfl
        rw [this] at hy
        exact ⟨y, hy, e1, e2⟩
      | ok r =>
        obtain ⟨s, m'⟩ := r
        have h1 : m.step (.newOrder q) = m' := by simp only [Market.step, Market.exec, he, ok_bind]
        rw [h1] at hy
        rcases C48_nothing_appears h.reachable hi he _ hy with ⟨z, hz, f1, f2, f3⟩ | ⟨f1, _⟩
        · exact ⟨z, hz, f1.trans e1, by omega⟩
        · have := hs q (List.mem_cons_self ..)
          rw [this] at f1
          cases side <;> cases f1

theorem sorted_resting (h : Reachable m) (side : Side) : (resting m side).Pairwise side.before := by
  obtain ⟨a, ha⟩ := h.known
  rw [ha.rep.resting]
  exact ha.inv.sorted side

/-- C103. New orders of one side, cancellations and consumption, in any number and by whomever, leave a market that is no
deeper, at any price, for a taker of that side. -/
theorem C103_less_is_left {c is} (h : ReachBy c is m) {js : List (Instr C)} (hlen : is.length + js.length ≤ 2 ^ 63)
    (hj : ∀ i ∈ js, i.Ok) {side : Side} (hs : ∀ q, .newOrder q ∈ js → q.side = side) : Deeper side (m.run js) m := by
  intro limit
  have e : ∀ m : Market C, depthAt m side limit = sumQty ((resting m side.opposite).filter
      (fun o => side.accepts limit o.price)) := fun _ => rfl
  rw [e, e]
  refine (ranked_sub (side := side.opposite) ((sorted_resting (h.append hj).reachable _).filter _)
    ((sorted_resting h.reachable _).filter _) ?_).2
  intro x hx
  obtain ⟨hx, ha⟩ := List.mem_filter.1 hx
  obtain ⟨y, hy, e1, e2⟩ := run_left h hlen hj hs hx
  refine ⟨y, List.mem_filter.2 ⟨hy, ?_⟩, e1, e2⟩
  unfold Order.price at ha ⊢
  rw [e1]
  exact ha

section
variable {c : Config} {is js : List (Instr C)} (h : ReachBy c is m) (hlen : is.length + js.length ≤ 2 ^ 63)
  (hj : ∀ i ∈ js, i.Ok) (hs : ∀ q, .newOrder q ∈ js → q.side = p.side) (hp : (Instr.newOrder p).Ok)
  (e₁ : m.newOrder p = .ok (s₁, m₁')) (e₂ : (m.run js).newOrder p = .ok (s₂, m₂'))
  (hown : p.selfTradeBehavior ≠ .decrementTake → ∀ o ∈ acceptable m p,
    CallbackInfo.asCallbackId p.callbackInfo ≠ CallbackInfo.asCallbackId o.cb)
include h hlen hj hs hp e₁ e₂ hown

/-- C103. So an order trades no less if it comes before the others of its side than after them (if its match limit and
its quote cap suffice when it comes first). -/
theorem C103_no_less_base (hpost : p.postOnly = false) (hunit : p.side = .bid ∨ 2 ^ 32 ≤ p.limitPrice)
    (hlimit : (greedy p.maxBaseQty (acceptable m p)).length ≤ p.matchLimit)
    (hcap : costOf (greedy p.maxBaseQty (acceptable m p)) ≤ p.maxQuoteQty) :
    sumBase (fills (emitted (m.run js) m₂')) ≤ sumBase (fills (emitted m m₁')) :=
  C98_more_base (h.append hj).reachable h.reachable hp e₂ e₁ (C103_less_is_left h hlen hj hs _) hpost hown hunit hlimit hcap

/-- C103. And a buyer who gets no more by coming first does not pay more, but for the rounding of each fill. -/
theorem C103_buyer (hb : p.side = .bid)
    (hbase : sumBase (fills (emitted m m₁')) ≤ sumBase (fills (emitted (m.run js) m₂'))) :
    bill (resting m .ask) (traded (emitted m m₁')) ≤ bill (resting (m.run js) .ask) (traded (emitted (m.run js) m₂')) ∧
    sumQuote (fills (emitted m m₁')) * 2 ^ 32 ≤
      sumQuote (fills (emitted (m.run js) m₂')) * 2 ^ 32 + (fills (emitted m m₁')).length * (2 ^ 32 - 1) :=
  C98_buyer (h.append hj).reachable h.reachable hp e₂ e₁ hb (hb ▸ C103_less_is_left h hlen hj hs) hown hbase

/-- C103. A seller who sells as much by coming first, and whose quote cap covers the order, does not receive less, but for
the rounding of each fill. -/
theorem C103_seller (ha : p.side = .ask) (hcap : ∀ o ∈ resting m .bid, p.maxBaseQty * o.price ≤ p.maxQuoteQty * 2 ^ 32)
    (hbase : sumBase (fills (emitted (m.run js) m₂')) ≤ sumBase (fills (emitted m m₁'))) :
    bill (resting (m.run js) .bid) (traded (emitted (m.run js) m₂')) ≤ bill (resting m .bid) (traded (emitted m m₁')) ∧
    sumQuote (fills (emitted (m.run js) m₂')) * 2 ^ 32 ≤
      sumQuote (fills (emitted m m₁')) * 2 ^ 32 + (fills (emitted m m₁')).length * (2 ^ 32 - 1) :=
  C98_seller (h.append hj).reachable h.reachable hp e₂ e₁ ha (ha ▸ C103_less_is_left h hlen hj hs) hown hcap hbase

end

/-! ### Concrete cases -/

/-- The ask of user 1 at 10 is cancelled and two others buy 5 and 3; then user 9 buys 4 for 44, which before would have cost 40. -/
def rivals : List (Instr DemoCb) :=
  [.cancelOrder (10 * 2 ^ 96), .newOrder (demoOnly .bid 5 11 8), .newOrder (demoOrder .bid 3 11 7)]

theorem rivals_buy : ∀ q, .newOrder q ∈ rivals → q.side = .bid := by
  intro q hq
  simp only [rivals, List.mem_cons, Instr.newOrder.injEq, reduceCtorEq, List.not_mem_nil, or_false, false_or] at hq
  rcases hq with rfl | rfl <;> rfl
theorem demo_rival_first : demo.newOrder (demoOnly .bid 4 11 9) =
    .ok (⟨none, 4, 40, 0⟩, demo.step (.newOrder (demoOnly .bid 4 11 9))) := by decide +kernel
theorem demo_rival_later : (demo.run rivals).newOrder (demoOnly .bid 4 11 9) =
    .ok (⟨none, 4, 44, 0⟩, (demo.run rivals).step (.newOrder (demoOnly .bid 4 11 9))) := by decide +kernel

example := C103_no_less_base demo_reachBy (js := rivals) (by decide) (by decide) rivals_buy (by decide) demo_rival_first demo_rival_later
  (by decide +kernel) rfl (.inl rfl) (by decide +kernel) (by decide +kernel)
example := C103_buyer demo_reachBy (js := rivals) (by decide) (by decide) rivals_buy (by decide) demo_rival_first demo_rival_later
  (by decide +kernel) rfl (by decide +kernel)

/-- Another sells 12; then user 9 sells 2 for 16 instead of 18. -/
theorem demo_rival_first_sell : demo.newOrder (demoOnly .ask 2 8 9) =
    .ok (⟨none, 2, 18, 0⟩, demo.step (.newOrder (demoOnly .ask 2 8 9))) := by decide +kernel
theorem demo_rival_later_sell : (demo.run [.newOrder (demoOnly .ask 12 8 7)]).newOrder (demoOnly .ask 2 8 9) =
    .ok (⟨none, 2, 16, 0⟩, (demo.run [.newOrder (demoOnly .ask 12 8 7)]).step (.newOrder (demoOnly .ask 2 8 9))) := by
  decide +kernel

example := C103_seller demo_reachBy (js := [.newOrder (demoOnly .ask 12 8 7)]) (by decide) (by decide)
  (fun q hq => by rw [List.mem_singleton] at hq; cases hq; rfl) (by decide)
  demo_rival_first_sell demo_rival_later_sell (by decide +kernel) rfl (by decide +kernel) (by decide +kernel)

/-- C103 is false for a buyer whose quote cap binds: with one quote unit they get 1 at price 1/4 if they come first, and 2 at
price 1/2 if somebody else has taken that. -/
theorem C103_quote_cap_witness :
    let m := (({ minBase := 1, tick := 1, capBids := 3, capAsks := 3, capEvents := 12 } : Config).market ⟨0, 0⟩).run
      [.newOrder { demoOrder .ask 10 1 1 with limitPrice := 2 ^ 31 }, .newOrder { demoOrder .ask 1 1 2 with limitPrice := 2 ^ 30 }]
    let buy := { demoOnly .bid 10 1 9 with maxQuoteQty := 1 }
    (m.newOrder buy).map (fun x => x.1) = .ok ⟨none, 1, 1, 0⟩ ∧
    ((m.run [.newOrder { buy with callbackInfo := ⟨8, 8⟩ }]).newOrder buy).map (fun x => x.1) = .ok ⟨none, 2, 1, 0⟩ := by
  decide +kernel

end AOB
