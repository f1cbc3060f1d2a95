import Verif.Spec.Worth
import Verif.Props.Wallet
import Verif.Props.Count
/-
Trading does not make anyone poorer who keeps to their own price (C101).
-/
namespace AOB
variable {C : Type} [CallbackInfo C] {m m' : Market C} {p : NewOrderParams C} {s : OrderSummary} {c : Config}
  {is : List (Instr C)} {L : Log C}

omit [CallbackInfo C] in
theorem takenBy_out (g : C → Bool) (side : Side) (id b : Nat) (cb : C) (es : List (Event C)) :
    takenBy g (.out side id b cb :: es) = takenBy g es := rfl
omit [CallbackInfo C] in
theorem takenBy_fill (g : C → Bool) (ts : Side) (id b q : Nat) (mk tk : C) (es : List (Event C)) :
    takenBy g (.fill ts id b q mk tk :: es) = if g tk then .fill ts id b q mk tk :: takenBy g es else takenBy g es := by
  unfold takenBy; rw [List.filter_cons]

/-- The orders of the group that were posted are at prices it keeps to, and so are those its takers traded with. -/
theorem HistoryOf.keeps {g : C → Bool} {price : Nat} (h : HistoryOf c is m L) (hlen : is.length ≤ 2 ^ 63)
    (hk : KeepsTo g price is) :
    (∀ o ∈ L.posted, g o.cb = true → match sideOfId o.id with
      | .bid => o.id / 2 ^ 64 ≤ price
      | .ask => price ≤ o.id / 2 ^ 64) ∧
    (∀ ts id b q mk tk, Event.fill ts id b q mk tk ∈ L.events → sideOfId id = ts.opposite ∧ (g tk = true → match ts with
      | .bid => id / 2 ^ 64 ≤ price
      | .ask => price ≤ id / 2 ^ 64)) := by
  induction is using List.reverseRecOn generalizing m L with
  | nil =>
    obtain ⟨_, _, c0, _, rfl⟩ := h
    exact ⟨fun e he => (by cases he), fun _ _ _ _ _ _ he => (by cases he)⟩
  | append_singleton is i ih =>
    rw [List.length_append, List.length_singleton] at hlen
    obtain ⟨m0, L0, h0, rfl, rfl, hi⟩ := h.snoc
    obtain ⟨i1, i2⟩ := ih h0 (by omega) (fun p hp => hk p (List.mem_append_left _ hp))
    rcases stepLog_cases m0 i with ⟨p, s, m', rfl, hn, e1, e2⟩ | ⟨e1, e2⟩
    · have hkp := hk p (by simp)
      constructor
      · intro o ho hg
        rcases List.mem_append.1 ho with ho | ho
        · exact i1 o ho hg
        · rw [e1] at ho
          unfold postedBy at ho
          cases hid : s.postedOrderId with
          | none => rw [hid] at ho; cases ho
          | some id =>
            rw [hid] at ho
            rw [List.mem_singleton] at ho
            subst ho
            obtain ⟨f1, _, f3, _⟩ := C11_posted_id h0.reachBy (by omega) hi hn hid
            have hkp := hkp hg
            rw [sideOfId_eq] at f3
            simp only [f3, f1]
            exact hkp
      · intro ts id b q mk tk he
        rcases List.mem_append.1 he with he | he
        · exact i2 _ _ _ _ _ _ he
        · rw [e2] at he
          obtain ⟨rfl, _⟩ := C06_fill_value h0.reachBy.reachable hi hn he
          obtain ⟨_, ⟨o, ho, e3⟩, hl⟩ := C03_limit_respected h0.reachBy.reachable hi hn he rfl
          have hs := C11_resting_side h0.reachBy (by omega) ho
          rw [sideOfId_eq, e3] at hs
          refine ⟨hs, fun hg => ?_⟩
          have hcb := (C09_callback_info h0.reachBy.reachable hi hn he).2 _ _ _ _ _ _ rfl
          subst hcb
          have hkp := hkp hg
          cases hps : p.side <;> simp only [hps, Event.id] at hkp hl ⊢ <;> omega
    · have p1 : (L0.append (stepLog m0 i)).posted = L0.posted := by simp [Log.append, e1]
      have p2 : (L0.append (stepLog m0 i)).events = L0.events := by simp [Log.append, e2]
      rw [p1, p2]
      exact ⟨i1, i2⟩

/-- What one fill means to the two sides of it, if they keep to `price`. -/
theorem HistoryOf.fair {g : C → Bool} {price : Nat} (h : HistoryOf c is m L) (hlen : is.length ≤ 2 ^ 63)
    (hk : KeepsTo g price is) {ts : Side} {id b q : Nat} {mk tk : C} (he : Event.fill ts id b q mk tk ∈ L.events) :
    match ts with
    | .bid => (g tk = true → q * 2 ^ 32 ≤ b * price + (2 ^ 32 - 1)) ∧ (g mk = true → b * price ≤ q * 2 ^ 32)
    | .ask => (g mk = true → q * 2 ^ 32 ≤ b * price) ∧ (g tk = true → b * price ≤ q * 2 ^ 32 + (2 ^ 32 - 1)) := by
  obtain ⟨k1, k2⟩ := h.keeps hlen hk
  obtain ⟨hs, ht⟩ := k2 _ _ _ _ _ _ he
  obtain ⟨x, hx, e1, e2⟩ := (C09_from_posting h hlen).1 _ he
  have hm := k1 x hx
  rw [e1, e2] at hm
  simp only [Event.id, Event.makerCb] at hm
  have hv := h.fill_value hlen _ he rfl
  simp only [Event.id, Event.base, Event.quote] at hv
  cases ts with
  | bid =>
    simp only [hs, Side.opposite] at hm hv ht
    refine ⟨fun hg => ?_, fun hg => ?_⟩
    · have := Nat.mul_le_mul_left b (ht hg)
      omega
    · have := Nat.mul_le_mul_left b (hm hg)
      omega
  | ask =>
    simp only [hs, Side.opposite] at hm hv ht
    refine ⟨fun hg => ?_, fun hg => ?_⟩
    · have := Nat.mul_le_mul_left b (hm hg)
      omega
    · have := Nat.mul_le_mul_left b (ht hg)
      omega

/-- C101. Over any history, a group whose bids are not above and whose asks are not below a price has bought at no more and
sold at no less than that price, up to less than one quote unit for each fill in which it was the taker. -/
theorem C101_trades (h : HistoryOf c is m L) (hlen : is.length ≤ 2 ^ 63) {g : C → Bool} {price : Nat}
    (hk : KeepsTo g price is) :
    sumQuote (buysOf g L.events) * 2 ^ 32 ≤
      sumBase (buysOf g L.events) * price + (takenBy g (buysOf g L.events)).length * (2 ^ 32 - 1) ∧
    sumBase (sellsOf g L.events) * price ≤
      sumQuote (sellsOf g L.events) * 2 ^ 32 + (takenBy g (sellsOf g L.events)).length * (2 ^ 32 - 1) := by
  have key : ∀ l : List (Event C), (∀ e ∈ l, e ∈ L.events) →
      sumQuote (buysOf g l) * 2 ^ 32 ≤
        sumBase (buysOf g l) * price + (takenBy g (buysOf g l)).length * (2 ^ 32 - 1) ∧
      sumBase (sellsOf g l) * price ≤
        sumQuote (sellsOf g l) * 2 ^ 32 + (takenBy g (sellsOf g l)).length * (2 ^ 32 - 1) := by
    intro l
    induction l with
    | nil => intro _; simp
    | cons e l ih =>
      intro hall
      have ih := ih (fun e he => hall e (List.mem_cons_of_mem _ he))
      cases e with
      | out side id b cb => rw [buysOf_out, sellsOf_out]; exact ih
      | fill ts id b q mk tk =>
        have hf := h.fair hlen hk (hall _ (List.mem_cons_self))
        rw [buysOf_fill, sellsOf_fill]
        obtain ⟨i1, i2⟩ := ih
        cases ts <;> simp only at hf ⊢ <;> generalize 2 ^ 32 - 1 = w at * <;> generalize 2 ^ 32 = z at * <;>
          by_cases hm : g mk = true <;> by_cases ht : g tk = true <;>
          simp only [hm, ht, if_true, if_false, Bool.false_eq_true, sumBase_cons, sumQuote_cons, Event.base, Event.quote,
            takenBy_fill, List.length_cons, Nat.add_mul, Nat.one_mul, true_implies, false_implies, and_true, true_and]
            at hf ⊢ <;> omega
  exact key _ (fun _ h => h)

/-- C101. At a price that a group keeps to, all it has, in its wallets, on the book and in pending events, is worth no less
after any history than before it, up to one quote unit for each fill in which it was the taker and for each place where
its funds are rounded (`roundingsOf`: a bid posted, a fill of a resting bid). Whatever the others do. -/
theorem C101_no_loss (hv : c.Valid) (hok : ∀ i ∈ is, i.Ok) (hlen : is.length ≤ 2 ^ 63) (c0 : C) {g : C → Bool}
    {price : Nat} (hk : KeepsTo g price is) (hL : L = runLog (c.market c0) is) (hm : m = (c.market c0).run is) {v : Vault}
    (hw : v = runWallet g (c.market c0) {} is) :
    0 ≤ wealth price (v.base + outsideBase g m) (v.quote + outsideQuote g m) +
      ((takenBy g (buysOf g L.events)).length + (takenBy g (sellsOf g L.events)).length) * (2 ^ 32 - 1) +
      roundingsOf g L * 2 ^ 32 := by
  have h1 := C101_trades (c := c) ⟨hv, hok, c0, hm, hL⟩ hlen hk
  obtain ⟨w1, _, w3⟩ := C100_has_what_it_traded hv hok hlen c0 g hL hm hw
  unfold wealth
  rw [w1, Int.sub_mul, ← Int.natCast_mul, ← Int.natCast_mul]
  obtain ⟨a, b⟩ := h1
  generalize sumBase (buysOf g L.events) * price = x at *
  generalize sumBase (sellsOf g L.events) * price = y at *
  omega

/-! ### Concrete histories -/

/-- A check of `KeepsTo`. -/
theorem keepsTo_of_all {g : C → Bool} {price : Nat} (h : (is.all fun
    | .newOrder p => !g p.callbackInfo || (match p.side with
      | .bid => decide (p.limitPrice ≤ price)
      | .ask => decide (price ≤ p.limitPrice))
    | _ => true) = true) : KeepsTo g price is := by
  intro p hp hg
  have := List.all_eq_true.1 h _ hp
  simp only [hg, Bool.not_true, Bool.false_or] at this
  cases hs : p.side <;> rw [hs] at this <;> exact of_decide_eq_true this

example := C101_trades (c := demoCfg) (is := custodyHist) ⟨demo_valid, by decide +kernel, ⟨0, 0⟩, rfl, rfl⟩ (by decide)
  (g := fun c => c.user == 1) (price := 21 * 2 ^ 31) (keepsTo_of_all (by decide +kernel))
example := C101_no_loss demo_valid (is := custodyHist) (by decide +kernel) (by decide) ⟨0, 0⟩
  (g := fun c => c.user == 1) (price := 21 * 2 ^ 31) (keepsTo_of_all (by decide +kernel)) rfl rfl rfl

/-- A sale of 1 at 1.75 to a resting bid. -/
def quarterSale : List (Instr DemoCb) :=
  [.newOrder quarterBid, .newOrder { demoOrder .ask 1 0 2 with limitPrice := 7 * 2 ^ 30, postAllowed := false }]

example := C101_no_loss (c := quarterCfg) (is := quarterSale) (by constructor <;> decide) (by decide +kernel) (by decide) ⟨0, 0⟩
  (g := fun c => c.user == 2) (price := 7 * 2 ^ 30) (keepsTo_of_all (by decide +kernel)) rfl rfl rfl

/-- C101. Both allowances are needed. User 1 of `custodyHist` buys 3 at 10.5 by a resting bid and has paid 32 in the end;
a seller of 1 at 1.75 gets 1. A group that does not keep to a price loses at it: the same user by 5 at a price of 9, of which 4.5 are not due to rounding. -/
theorem C101_rounding_witness :
    let m0 := demoCfg.market ⟨0, 0⟩
    let one := runWallet (fun c => c.user == 1) m0 {} custodyHist
    let m1 := quarterCfg.market ⟨0, 0⟩
    let two := runWallet (fun c => c.user == 2) m1 {} quarterSale
    wealth (21 * 2 ^ 31) one.base one.quote = -2 ^ 31 ∧ wealth (9 * 2 ^ 32) one.base one.quote = -5 * 2 ^ 32 ∧
    (takenBy (fun c => c.user == 1) (runLog m0 custodyHist).events).length = 0 ∧
    roundingsOf (fun c => c.user == 2) (runLog m1 quarterSale) = 0 ∧
    outsideBase (fun c => c.user == 2) (m1.run quarterSale) = 0 ∧
    wealth (7 * 2 ^ 30) two.base (two.quote + outsideQuote (fun c => c.user == 2) (m1.run quarterSale)) = -3 * 2 ^ 30 := by
  decide +kernel

end AOB
