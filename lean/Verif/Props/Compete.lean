import Verif.Proofs.Compete
import Verif.Props.Depth
import Verif.Props.Economy
import Verif.Props.Cancel
/-
C98: more resting orders do not hurt who takes.
-/
namespace AOB
variable {C : Type} [CallbackInfo C] {m m₁ m₂ m₁' m₂' : Market C} {p : NewOrderParams C} {s s₁ s₂ : OrderSummary}

omit [CallbackInfo C] in
theorem depthAt_within (m : Market C) (side : Side) (x : Nat) :
    depthAt m side x = within side (resting m side.opposite) Order.qty x := rfl

/-- A new order takes nothing from an order whose price it does not accept. -/
theorem traded_accepted (h : Reachable m) (hp : (Instr.newOrder p).Ok) (he : m.newOrder p = .ok (s, m'))
    {o : Order C} (ho : o ∈ resting m p.side.opposite) (hn : traded (emitted m m') o ≠ 0) :
    p.side.accepts p.limitPrice o.price = true := by
  obtain ⟨_, _, es, _, _, _, _, hst, hnd, _, _, _, htr⟩ := best_view h hp he
  rw [htr] at hn
  by_contra hc
  refine hn ?_
  unfold traded
  have : fillsOf o.id es = [] := by
    unfold fillsOf
    rw [List.filter_eq_nil_iff]
    intro e hm hf
    simp only [Bool.and_eq_true, beq_iff_eq] at hf
    obtain ⟨x, hx, t, rfl, _, _, _, hacc, _⟩ := hst.fill e hm hf.1
    have : x = o := List.inj_on_of_nodup_map hnd hx ho hf.2
    exact hc (this ▸ hacc)
  rw [this]
  rfl

theorem traded_within (h : Reachable m) (hp : (Instr.newOrder p).Ok) (he : m.newOrder p = .ok (s, m')) :
    within p.side (resting m p.side.opposite) (traded (emitted m m')) p.limitPrice = sumBase (fills (emitted m m')) := by
  rw [← (C85_fills_allocate h hp he).2]
  have : ∀ l : List (Order C), (∀ o ∈ l, traded (emitted m m') o ≠ 0 → p.side.accepts p.limitPrice o.price = true) →
      within p.side l (traded (emitted m m')) p.limitPrice = amount l (traded (emitted m m')) := by
    intro l
    induction l with
    | nil => simp [within]
    | cons o l ih =>
      intro h
      rw [within_cons, amount_cons, ih (fun x hx => h x (by simp [hx]))]
      have := h o (by simp)
      split
      · rfl
      · rename_i hc
        have : traded (emitted m m') o = 0 := by by_contra hne; exact hc (this hne)
        omega
  exact this _ (fun o ho => traded_accepted h hp he ho)

/-- C98: where at least as much rests at acceptable prices, at least as much is traded (conditions as for C87, on the deeper
market only; the markets may differ in everything else, also in their configuration). -/
theorem C98_more_base (h₁ : Reachable m₁) (h₂ : Reachable m₂) (hp : (Instr.newOrder p).Ok)
    (e₁ : m₁.newOrder p = .ok (s₁, m₁')) (e₂ : m₂.newOrder p = .ok (s₂, m₂'))
    (hd : depthAt m₁ p.side p.limitPrice ≤ depthAt m₂ p.side p.limitPrice)
    (hpost : p.postOnly = false)
    (hown : p.selfTradeBehavior ≠ .decrementTake → ∀ o ∈ acceptable m₂ p,
      CallbackInfo.asCallbackId p.callbackInfo ≠ CallbackInfo.asCallbackId o.cb)
    (hunit : p.side = .bid ∨ 2 ^ 32 ≤ p.limitPrice)
    (hlimit : (greedy p.maxBaseQty (acceptable m₂ p)).length ≤ p.matchLimit)
    (hcap : costOf (greedy p.maxBaseQty (acceptable m₂ p)) ≤ p.maxQuoteQty) :
    sumBase (fills (emitted m₁ m₁')) ≤ sumBase (fills (emitted m₂ m₂')) := by
  rw [C87_total h₂ hp e₂ hpost hown hunit hlimit hcap]
  have h4 := (C04_caps h₁ hp e₁).2.2.1
  have h5 := traded_within h₁ hp e₁
  have h6 := within_mono (side := p.side) (C85_fills_allocate h₁ hp e₁).1.le p.limitPrice
  have h7 : depthFor m₂ p = depthAt m₂ p.side p.limitPrice := rfl
  rw [h7]
  rw [depthAt_within] at hd
  omega

theorem own_zero (hown : p.selfTradeBehavior ≠ .decrementTake → ∀ o ∈ acceptable m p,
      CallbackInfo.asCallbackId p.callbackInfo ≠ CallbackInfo.asCallbackId o.cb) {f : Order C → Nat}
    (hf : within p.side (resting m p.side.opposite) f p.limitPrice = amount (resting m p.side.opposite) f)
    (hb : p.selfTradeBehavior ≠ .decrementTake) {o : Order C} (ho : o ∈ resting m p.side.opposite)
    (hc : CallbackInfo.asCallbackId p.callbackInfo = CallbackInfo.asCallbackId o.cb) : f o = 0 := by
  refine zero_outside hf ho (fun hacc => ?_)
  exact hown hb o (List.mem_filter.2 ⟨ho, hacc⟩) hc

theorem total_le (h : Reachable m) (hp : (Instr.newOrder p).Ok) (he : m.newOrder p = .ok (s, m')) :
    sumBase (fills (emitted m m')) ≤ within p.side (resting m p.side.opposite) Order.qty p.limitPrice := by
  rw [← traded_within h hp he]
  exact within_mono (C85_fills_allocate h hp he).1.le _

/-- C98: a buyer who gets no more from the deeper market does not get it for more, but for the rounding of each fill. -/
theorem C98_buyer (h₁ : Reachable m₁) (h₂ : Reachable m₂) (hp : (Instr.newOrder p).Ok)
    (e₁ : m₁.newOrder p = .ok (s₁, m₁')) (e₂ : m₂.newOrder p = .ok (s₂, m₂')) (hs : p.side = .bid)
    (hd : Deeper .bid m₁ m₂)
    (hown : p.selfTradeBehavior ≠ .decrementTake → ∀ o ∈ acceptable m₂ p,
      CallbackInfo.asCallbackId p.callbackInfo ≠ CallbackInfo.asCallbackId o.cb)
    (hbase : sumBase (fills (emitted m₂ m₂')) ≤ sumBase (fills (emitted m₁ m₁'))) :
    bill (resting m₂ .ask) (traded (emitted m₂ m₂')) ≤ bill (resting m₁ .ask) (traded (emitted m₁ m₁')) ∧
    sumQuote (fills (emitted m₂ m₂')) * 2 ^ 32 ≤
      sumQuote (fills (emitted m₁ m₁')) * 2 ^ 32 + (fills (emitted m₂ m₂')).length * (2 ^ 32 - 1) := by
  have ho : p.side.opposite = .ask := by rw [hs]; rfl
  obtain ⟨_, _, _, _, _, _, _, _, hnd, hord, _⟩ := best_view h₂ hp e₂
  have hal := C85_fills_allocate h₁ hp e₁
  have htot := total_le h₂ hp e₂
  have hr := C85_rounding h₁ hp e₁
  rw [hs] at hord hr htot
  rw [ho] at hnd hal
  simp only [Side.opposite] at hr hord htot
  have htop := within_le .bid (resting m₂ .ask) Order.qty p.limitPrice
  obtain ⟨f, f1, f2, f3, f4⟩ := cheaper (l₁ := resting m₁ .ask) hord hnd (hd ·) hal.1.le (t := sumBase (fills (emitted m₂ m₂')))
    (by rw [hal.2]; exact hbase) (Nat.le_trans htot htop)
  have hwithin : within p.side (resting m₂ p.side.opposite) f p.limitPrice = amount (resting m₂ p.side.opposite) f := by
    rw [ho, hs, f3, f2]; omega
  have := C85_buyer h₂ hp e₂ hs (f := f)
    ⟨f1, fun hb o hmem hc => own_zero hown hwithin hb (by rw [ho]; exact hmem) hc⟩ (by rw [f2])
  omega

/-- C98: a seller whose quote cap covers the whole order and who sells as much in the deeper market does not get less for it,
but for the rounding of each fill. -/
theorem C98_seller (h₁ : Reachable m₁) (h₂ : Reachable m₂) (hp : (Instr.newOrder p).Ok)
    (e₁ : m₁.newOrder p = .ok (s₁, m₁')) (e₂ : m₂.newOrder p = .ok (s₂, m₂')) (hs : p.side = .ask)
    (hd : Deeper .ask m₁ m₂)
    (hown : p.selfTradeBehavior ≠ .decrementTake → ∀ o ∈ acceptable m₂ p,
      CallbackInfo.asCallbackId p.callbackInfo ≠ CallbackInfo.asCallbackId o.cb)
    (hcap : ∀ o ∈ resting m₂ .bid, p.maxBaseQty * o.price ≤ p.maxQuoteQty * 2 ^ 32)
    (hbase : sumBase (fills (emitted m₁ m₁')) ≤ sumBase (fills (emitted m₂ m₂'))) :
    bill (resting m₁ .bid) (traded (emitted m₁ m₁')) ≤ bill (resting m₂ .bid) (traded (emitted m₂ m₂')) ∧
    sumQuote (fills (emitted m₁ m₁')) * 2 ^ 32 ≤
      sumQuote (fills (emitted m₂ m₂')) * 2 ^ 32 + (fills (emitted m₂ m₂')).length * (2 ^ 32 - 1) := by
  have ho : p.side.opposite = .bid := by rw [hs]; rfl
  obtain ⟨_, _, _, _, _, _, _, _, hnd, hord, _⟩ := best_view h₂ hp e₂
  have hal := C85_fills_allocate h₁ hp e₁
  have htot := total_le h₂ hp e₂
  have hr := C85_rounding h₁ hp e₁
  rw [hs] at hord hr htot
  rw [ho] at hnd hal
  simp only [Side.opposite] at hr hord htot
  have htop := within_le .ask (resting m₂ .bid) Order.qty p.limitPrice
  obtain ⟨f, f1, f2, f3, f4⟩ := dearer (l₁ := resting m₁ .bid) hord hnd (hd ·) hal.1.le (t := sumBase (fills (emitted m₂ m₂')))
    (by rw [hal.2]; exact hbase) (Nat.le_trans htot htop)
  have hwithin : within p.side (resting m₂ p.side.opposite) f p.limitPrice = amount (resting m₂ p.side.opposite) f := by
    rw [ho, hs, f3, f2]; omega
  have := C85_seller h₂ hp e₂ hs hcap (f := f)
    ⟨f1, fun hb o hmem hc => own_zero hown hwithin hb (by rw [ho]; exact hmem) hc⟩ f2
  omega

omit [CallbackInfo C] in
/-- C98: a market with the same orders and others in addition is deeper. -/
theorem C98_additional {side : Side} (h : (resting m₁ side.opposite).Sublist (resting m₂ side.opposite)) : Deeper side m₁ m₂ := by
  intro x
  exact sum_sublist ((h.filter _).map _)

/-- C98: a cancel makes a market less deep. -/
theorem C98_cancel {c is} (h : ReachBy c is m) (hlen : is.length ≤ 2 ^ 63) {o : Order C} {side : Side}
    (ho : o ∈ resting m side) (he : m.cancelOrder o.id = .ok (s, m')) (taker : Side) : Deeper taker m' m := by
  obtain ⟨L, R, hLR⟩ := List.append_of_mem ho
  obtain ⟨m₂, e₂, r1, r2, _⟩ := C21_cancel h hlen hLR
  rw [he] at e₂
  cases e₂
  apply C98_additional
  rcases Decidable.em (taker.opposite = side) with hs | hs
  · rw [hs, r1, hLR]
    exact (List.Sublist.refl L).append (List.sublist_cons_self o R)
  · have : taker.opposite = side.opposite := by cases taker <;> cases side <;> simp_all [Side.opposite]
    rw [this, r2]

/-! ### Concrete cases -/

/-- `demoLess` is the demo market without the ask of 7 at price 10: buying 8 costs 83 there, 80 in the demo market. -/
theorem demo_deeper : Deeper .bid demoLess demo := C98_additional (by decide +kernel)

example := C98_more_base demoLess_reachBy.reachable demo_reachable (p := demoOnly .bid 8 11 9) (by decide) demoLess_buy8 demo_buy8
  (demo_deeper _) rfl (by decide +kernel) (.inl rfl) (by decide +kernel) (by decide +kernel)
example := C98_buyer demoLess_reachBy.reachable demo_reachable (p := demoOnly .bid 8 11 9) (by decide) demoLess_buy8 demo_buy8 rfl
  demo_deeper (by decide +kernel) (by decide +kernel)
example : bill (resting demoLess .ask) (traded (emitted demoLess (demoLess.step (.newOrder (demoOnly .bid 8 11 9))))) = 83 * 2 ^ 32 ∧
    bill (resting demo .ask) (traded (emitted demo (demo.step (.newOrder (demoOnly .bid 8 11 9))))) = 80 * 2 ^ 32 := by
  decide +kernel

/-- The demo market without the first of its bids, that of 8 at price 9. Selling 5 brings 44 there, 45 in the demo market. -/
def demoLessBids : Market DemoCb := demo.step (.cancelOrder (9 * 2 ^ 96 + (2 ^ 64 - 1 - 3)))

theorem demoLessBids_reachable : Reachable demoLessBids := demo_reachable.step (by decide)
theorem demoLessBids_sell : demoLessBids.newOrder (demoOnly .ask 5 8 9) =
    .ok (⟨none, 5, 44, 0⟩, demoLessBids.step (.newOrder (demoOnly .ask 5 8 9))) := by decide +kernel
theorem demo_sell5 : demo.newOrder (demoOnly .ask 5 8 9) =
    .ok (⟨none, 5, 45, 0⟩, demo.step (.newOrder (demoOnly .ask 5 8 9))) := by decide +kernel

example := C98_more_base demoLessBids_reachable demo_reachable (p := demoOnly .ask 5 8 9) (by decide) demoLessBids_sell demo_sell5
  (by decide +kernel) rfl (by decide +kernel) (.inr (by decide)) (by decide +kernel) (by decide +kernel)
example := C98_seller demoLessBids_reachable demo_reachable (p := demoOnly .ask 5 8 9) (by decide) demoLessBids_sell demo_sell5 rfl
  (C98_additional (by decide +kernel)) (by decide +kernel) (by decide +kernel) (by decide +kernel)
example := C98_cancel demo_reachBy (by decide) (o := ⟨10 * 2 ^ 96 + 2, 7, ⟨3, 7⟩⟩) (side := .ask) (by decide +kernel)
  (show demo.cancelOrder (10 * 2 ^ 96 + 2) = .ok (⟨none, 7, 70, 0⟩, demoLess) by decide +kernel) .bid

/-- C98 is false for a buyer whose quote cap binds: one more ask, and a better one, makes them get less. With one quote unit
they buy 2 at price 1/2; if there is also 1 at price 1/4, the unit is spent on that. -/
theorem C98_quote_cap_witness :
    let m₁ := (({ minBase := 1, tick := 1, capBids := 3, capAsks := 3, capEvents := 12 } : Config).market ⟨0, 0⟩).run
      [.newOrder { demoOrder .ask 10 1 1 with limitPrice := 2 ^ 31 }]
    let m₂ := m₁.run [.newOrder { demoOrder .ask 1 1 2 with limitPrice := 2 ^ 30 }]
    let buy := { demoOnly .bid 10 1 9 with maxQuoteQty := 1 }
    (resting m₁ .ask).Sublist (resting m₂ .ask) ∧
    (m₁.newOrder buy).map (fun x => x.1) = .ok ⟨none, 2, 1, 0⟩ ∧
    (m₂.newOrder buy).map (fun x => x.1) = .ok ⟨none, 1, 1, 0⟩ := by
  decide +kernel

end AOB
