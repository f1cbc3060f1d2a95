import Verif.Proofs.Units
import Verif.Spec.Reprice
/-
The reference engine with other prices in the same order, or in reverse order with the sides exchanged, and other lots.
-/
namespace AOB
variable {C : Type} {r : Reprice}

/-! ### Prices, sides and ids -/

theorem PriceIn.pos {t p : Nat} (h : PriceIn t p) : 0 < p := by unfold PriceIn at h; omega

theorem PriceIn.top_pos {t p : Nat} (h : PriceIn t p) : 0 < t := by
  unfold PriceIn at h
  rcases Nat.eq_zero_or_pos t with rfl | h'
  · omega
  · exact h'

theorem worth_pos {t p : Nat} (h : PriceIn t p) (side : Side) {b : Nat} : worth side b p = 0 ↔ b = 0 := by
  have h1 : b * 2 ^ 32 ≤ b * p := Nat.mul_le_mul_left _ h.1
  refine ⟨fun hw => ?_, fun hb => ?_⟩
  · cases side <;> simp only [worth] at hw <;> omega
  · subst hb
    cases side <;> simp [worth]

theorem worth_le_top {t p : Nat} (h : PriceIn t p) (side : Side) (b : Nat) : worth side b p ≤ b * t := by
  have h1 : b * p ≤ b * t * 2 ^ 32 := by rw [Nat.mul_assoc]; exact Nat.mul_le_mul_left _ h.2
  cases side <;> simp only [worth] <;> omega

theorem affordable_ge {t p q b : Nat} (h : PriceIn t p) (hq : b * t ≤ q) : b ≤ affordable q p := by
  unfold affordable
  rw [Nat.le_div_iff_mul_le h.pos]
  calc b * p ≤ b * (t * 2 ^ 32) := Nat.mul_le_mul_left _ h.2
    _ = b * t * 2 ^ 32 := (Nat.mul_assoc _ _ _).symm
    _ ≤ q * 2 ^ 32 := Nat.mul_le_mul_right _ hq

theorem Reprice.side_opposite (r : Reprice) (s : Side) : (r.side s).opposite = r.side s.opposite := by
  unfold Reprice.side; split <;> rfl

theorem Reprice.Ok.accepts (h : r.Ok) {l p : Nat} (hl : PriceIn r.top l) (hp : PriceIn r.top p) (s : Side) :
    (r.side s).accepts (r.price l) (r.price p) = s.accepts l p := by
  cases hf : r.flip with
  | false => cases s <;> simp [Reprice.side, hf, Side.accepts, h.same hf, hl, hp]
  | true => cases s <;> simp [Reprice.side, hf, Side.opposite, Side.accepts, h.turned hf, hl, hp]

theorem Reprice.Ok.asGood (h : r.Ok) {l p : Nat} (hl : PriceIn r.top l) (hp : PriceIn r.top p) (s : Side) :
    (r.side s).asGood (r.price l) (r.price p) = s.asGood l p := by
  cases hf : r.flip with
  | false => cases s <;> simp [Reprice.side, hf, Side.asGood, h.same hf, hl, hp]
  | true => cases s <;> simp [Reprice.side, hf, Side.opposite, Side.asGood, h.turned hf, hl, hp]

theorem Reprice.Ok.inj (h : r.Ok) {l p : Nat} (hl : PriceIn r.top l) (hp : PriceIn r.top p)
    (e : r.price l = r.price p) : l = p := by
  cases hf : r.flip with
  | false => exact le_antisymm ((h.same hf l p hl hp).1 (le_of_eq e)) ((h.same hf p l hp hl).1 (le_of_eq e.symm))
  | true => exact le_antisymm ((h.turned hf p l hp hl).1 (le_of_eq e.symm)) ((h.turned hf l p hl hp).1 (le_of_eq e))

/-- The lower half of a changed id. -/
def Reprice.low (r : Reprice) (x : Nat) : Nat := if r.flip then 2 ^ 64 - 1 - x else x

theorem Reprice.low_lt (r : Reprice) {x : Nat} (h : x < 2 ^ 64) : r.low x < 2 ^ 64 := by
  unfold Reprice.low; split <;> omega

theorem Reprice.low_inj (r : Reprice) {x y : Nat} (hx : x < 2 ^ 64) (hy : y < 2 ^ 64) (h : r.low x = r.low y) : x = y := by
  unfold Reprice.low at h; split at h <;> omega

theorem joined_div (p : Nat) {x : Nat} (h : x < 2 ^ 64) : (p * 2 ^ 64 + x) / 2 ^ 64 = p := by omega
theorem joined_mod (p : Nat) {x : Nat} (h : x < 2 ^ 64) : (p * 2 ^ 64 + x) % 2 ^ 64 = x := by omega

theorem Reprice.id_price (r : Reprice) (i : Nat) : r.id i / 2 ^ 64 = r.price (i / 2 ^ 64) :=
  joined_div _ (r.low_lt (Nat.mod_lt _ (Nat.two_pow_pos _)))

theorem Reprice.id_low (r : Reprice) (i : Nat) : r.id i % 2 ^ 64 = r.low (i % 2 ^ 64) :=
  joined_mod _ (r.low_lt (Nat.mod_lt _ (Nat.two_pow_pos _)))

theorem Reprice.Ok.id_inj (h : r.Ok) {i j : Nat} (hi : PriceIn r.top (i / 2 ^ 64)) (hj : PriceIn r.top (j / 2 ^ 64)) :
    r.id i = r.id j ↔ i = j := by
  refine ⟨fun e => ?_, fun e => by rw [e]⟩
  have h1 := h.inj hi hj (by rw [← r.id_price, ← r.id_price, e])
  have h2 := r.low_inj (Nat.mod_lt i (Nat.two_pow_pos 64)) (Nat.mod_lt j (Nat.two_pow_pos 64))
    (by rw [← r.id_low, ← r.id_low, e])
  rw [← Nat.div_add_mod i (2 ^ 64), ← Nat.div_add_mod j (2 ^ 64), h1, h2]

theorem Reprice.id_side (r : Reprice) (i : Nat) : sideOfId (r.id i) = r.side (sideOfId i) := by
  unfold sideOfId
  rw [r.id_low]
  have := Nat.mod_lt i (Nat.two_pow_pos 64)
  generalize i % 2 ^ 64 = x at this
  unfold Reprice.low Reprice.side
  cases r.flip
  · simp
  · by_cases h : x < 2 ^ 63
    · rw [if_pos h, if_neg (by simp; omega)]; rfl
    · rw [if_neg h, if_pos (by simp; omega)]; rfl

theorem Reprice.id_join (r : Reprice) (p : Nat) {x : Nat} (h : x < 2 ^ 64) :
    r.id (p * 2 ^ 64 + x) = r.price p * 2 ^ 64 + r.low x := by
  show r.price ((p * 2 ^ 64 + x) / 2 ^ 64) * 2 ^ 64 + r.low ((p * 2 ^ 64 + x) % 2 ^ 64) = _
  rw [joined_div _ h, joined_mod _ h]

theorem Reprice.mkOrderId (r : Reprice) (s : Side) (p : Nat) {n : Nat} (h : n < 2 ^ 64) :
    mkOrderId (r.side s) (r.price p) n = r.id (mkOrderId s p n) := by
  cases s with
  | bid =>
    show _ = r.id (p * 2 ^ 64 + (2 ^ 64 - 1 - n))
    rw [r.id_join _ (by omega)]
    unfold Reprice.low Reprice.side
    cases r.flip
    · rfl
    · show r.price p * 2 ^ 64 + n = r.price p * 2 ^ 64 + (2 ^ 64 - 1 - (2 ^ 64 - 1 - n))
      congr 1; omega
  | ask =>
    show _ = r.id (p * 2 ^ 64 + n)
    rw [r.id_join _ h]
    unfold Reprice.low Reprice.side
    cases r.flip <;> rfl

@[simp] theorem Reprice.order_price (r : Reprice) (o : Order C) : (r.order o).price = r.price o.price := r.id_price o.id
@[simp] theorem Reprice.order_id (r : Reprice) (o : Order C) : (r.order o).id = r.id o.id := rfl
@[simp] theorem Reprice.order_qty (r : Reprice) (o : Order C) : (r.order o).qty = o.qty * r.lots := rfl
@[simp] theorem Reprice.order_cb (r : Reprice) (o : Order C) : (r.order o).cb = o.cb := rfl

/-! ### Matching -/

/-- All orders have prices in the range and are not too large. -/
def Reprice.All (r : Reprice) (l : List (Order C)) : Prop := ∀ o ∈ l, PriceIn r.top o.price ∧ o.qty ≤ r.size

/-- Both fail alike, or both succeed with related results. -/
def Both {E α β : Type} (R : α → β → Prop) : Except E α → Except E β → Prop
  | .ok x, .ok y => R x y
  | .error e, .error e' => e' = e
  | _, _ => False

theorem Both.map {E α β α' β' : Type} {R : α → β → Prop} {S : α' → β' → Prop} {f : α → α'} {g : β → β'}
    {x : Except E α} {y : Except E β} (h : Both R x y) (hfg : ∀ x y, R x y → S (f x) (g y)) :
    Both S (x.map f) (y.map g) := by
  cases x <;> cases y <;> first | exact h | exact hfg _ _ h

structure Reprice.Matched (r : Reprice) (b : Nat) (x x' : MatchOut C) : Prop where
  events : x'.events.map Event.noQuote = x.events.map r.event
  opp : x'.opp = x.opp.map r.order
  all : r.All x.opp
  base : x'.base = x.base * r.lots
  le : x.base ≤ b
  quote : x.base * r.top ≤ x.quote
  quote' : x.base * r.lots * r.top' ≤ x'.quote
  crossed : x'.crossed = x.crossed

theorem Reprice.Matched.emit {b b' : Nat} {x x' : MatchOut C} {es es' : List (Event C)} (h : r.Matched b x x') (hb : b ≤ b')
    (he : es'.map Event.noQuote = es.map r.event) : r.Matched b' (MatchOut.emit es x) (MatchOut.emit es' x') :=
  ⟨by simp [MatchOut.emit, he, h.events], h.opp, h.all, h.base, h.le.trans hb, h.quote, h.quote', h.crossed⟩

theorem refMatch_reprice [CallbackInfo C] (h : r.Ok) {p p' : NewOrderParams C} {k k' : Nat} (hp : r.Params k k' p p')
    {mb : Nat} : ∀ (n room : Nat) (opp : List (Order C)) (b q q' : Nat) (cr : Bool), r.All opp → b * r.top ≤ q →
    b * r.lots * r.top' ≤ q' → Both (r.Matched b) (refMatch p mb n room opp b q cr)
      (refMatch p' (mb * r.lots) n room (opp.map r.order) (b * r.lots) q' cr)
  | 0, _, _, _, _, _, _, ha, h1, h2 => ⟨rfl, rfl, ha, rfl, le_refl _, h1, h2, rfl⟩
  | _ + 1, _, [], _, _, _, _, ha, h1, h2 => ⟨rfl, rfl, ha, rfl, le_refl _, h1, h2, rfl⟩
  | n + 1, room, o :: rest, b, q, q', cr, ha, hq, hq' => by
    obtain ⟨ho, hoq⟩ := ha o List.mem_cons_self
    have ho' := h.range _ ho
    have hr : r.All rest := fun x hx => ha x (List.mem_cons_of_mem _ hx)
    have e1 : min (min o.qty b) (affordable q o.price) = min o.qty b :=
      min_eq_left ((min_le_right _ _).trans (affordable_ge ho hq))
    have em : min (o.qty * r.lots) (b * r.lots) = min o.qty b * r.lots := (Nat.mul_min_mul_right _ _ _)
    have e2 : min (min (o.qty * r.lots) (b * r.lots)) (affordable q' (r.price o.price)) = min o.qty b * r.lots :=
      em ▸ min_eq_left ((min_le_right _ _).trans (affordable_ge ho' hq'))
    simp only [List.map_cons, refMatch, Reprice.order_price, Reprice.order_qty, Reprice.order_cb, Reprice.order_id]
    rw [hp.postOnly, hp.side, hp.limit, hp.selfTrade, hp.cb, h.accepts hp.range ho, e1, e2]
    have hz : ∀ t, t * r.lots = 0 ↔ t = 0 := fun t => by rw [Nat.mul_eq_zero]; have := h.lots; omega
    simp only [worth_pos ho, worth_pos ho', or_self, hz]
    generalize hv : worth p.side (min o.qty b) o.price = v
    generalize hv' : worth (r.side p.side) (min o.qty b * r.lots) (r.price o.price) = v'
    have lv : v ≤ min o.qty b * r.top := hv ▸ worth_le_top ho _ _
    have lv' : v' ≤ min o.qty b * r.lots * r.top' := hv' ▸ worth_le_top ho' _ _
    have ht : min o.qty b ≤ b := min_le_right _ _
    generalize min o.qty b = t at lv lv' ht
    have gq : (b - t) * r.top ≤ q - v := by rw [Nat.sub_mul]; omega
    have gq' : (b - t) * r.lots * r.top' ≤ q' - v' := by rw [Nat.sub_mul, Nat.sub_mul]; omega
    simp only [← Nat.sub_mul, Nat.mul_lt_mul_right h.lots]
    have key : ∀ (es es' : List (Event C)) (room : Nat) (l : List (Order C)) (b' q q' : Nat), r.All l → b' ≤ b →
        b' * r.top ≤ q → b' * r.lots * r.top' ≤ q' → es'.map Event.noQuote = es.map r.event →
        Both (r.Matched b) ((refMatch p mb n room l b' q true).map (MatchOut.emit es))
          ((refMatch p' (mb * r.lots) n room (l.map r.order) (b' * r.lots) q' true).map (MatchOut.emit es')) := by
      intro es es' room l b' q q' hl hb hq hq' he
      exact (refMatch_reprice h hp n room l b' q q' true hl hq hq').map (fun x y hxy => hxy.emit hb he)
    by_cases h1 : (p.postOnly || !p.side.accepts p.limitPrice o.price) = true
    · simp only [if_pos h1]; exact ⟨rfl, rfl, ha, rfl, le_refl _, hq, hq', rfl⟩
    by_cases h2 : t = 0
    · simp only [if_neg h1, if_pos h2]; exact ⟨rfl, rfl, ha, rfl, le_refl _, hq, hq', rfl⟩
    simp only [if_neg h1, if_neg h2]
    by_cases h3 : p.selfTradeBehavior ≠ .decrementTake ∧
        CallbackInfo.asCallbackId p.callbackInfo = CallbackInfo.asCallbackId o.cb
    · simp only [if_pos h3]
      by_cases h4 : p.selfTradeBehavior = .abortTransaction
      · simp only [if_pos h4]; rfl
      by_cases h5 : room = 0
      · simp only [if_neg h4, if_pos h5]; rfl
      simp only [if_neg h4, if_neg h5]
      exact key _ _ (room - 1) rest b q q' hr (le_refl _) hq hq' (by
        simp [Event.noQuote, Reprice.event, r.side_opposite])
    simp only [if_neg h3]
    by_cases h4 : o.qty - t < mb
    · simp only [h4, if_true]
      by_cases h5 : room ≤ 1
      · simp only [if_pos h5]; rfl
      simp only [if_neg h5]
      exact key _ _ (room - 2) rest _ _ _ hr (Nat.sub_le _ _) gq gq' (by
        simp [Event.noQuote, Reprice.event, r.side_opposite])
    · simp only [h4, if_false]
      by_cases h5 : room = 0
      · simp only [if_pos h5]; rfl
      simp only [if_neg h5]
      refine key _ _ (room - 1) ({ o with qty := o.qty - t } :: rest) _ _ _ ?_ (Nat.sub_le _ _) gq gq' (by
        simp [Event.noQuote, Reprice.event])
      intro x hx
      rcases List.mem_cons.1 hx with rfl | hx
      · exact ⟨ho, (Nat.sub_le _ _).trans hoq⟩
      · exact hr x hx

/-! ### Posting -/

theorem takeWhile_map_congr {α β : Type} {f : α → β} {P : α → Bool} {Q : β → Bool} : ∀ {l : List α}, (∀ x ∈ l, Q (f x) = P x) →
    (l.map f).takeWhile Q = (l.takeWhile P).map f ∧ (l.map f).dropWhile Q = (l.dropWhile P).map f
  | [], _ => ⟨rfl, rfl⟩
  | x :: l, h => by
    obtain ⟨h1, h2⟩ := takeWhile_map_congr (l := l) (fun y hy => h y (List.mem_cons_of_mem _ hy))
    rw [List.map_cons, List.takeWhile_cons, List.dropWhile_cons, List.takeWhile_cons, List.dropWhile_cons,
      h x List.mem_cons_self, h1, h2]
    cases P x <;> exact ⟨rfl, rfl⟩

theorem insertOrder_reprice (h : r.Ok) (side : Side) {o : Order C} (ho : PriceIn r.top o.price) {l : List (Order C)}
    (hl : r.All l) : insertOrder (r.side side) (r.order o) (l.map r.order) = (insertOrder side o l).map r.order := by
  unfold insertOrder
  obtain ⟨h1, h2⟩ := takeWhile_map_congr (f := r.order) (P := fun x => side.asGood x.price o.price)
    (Q := fun x => (r.side side).asGood x.price (r.order o).price) (l := l)
    (fun x hx => by rw [Reprice.order_price, Reprice.order_price]; exact h.asGood (hl x hx).1 ho side)
  rw [h1, h2, List.map_append, List.map_cons]

structure Reprice.Posted (r : Reprice) (x x' : PostOut C) : Prop where
  posted : x'.posted = x.posted
  own : x'.own = x.own.map r.order
  all : r.All x.own
  events : x'.events.map Event.noQuote = x.events.map r.event

theorem insertOrder_all {side : Side} {o : Order C} {l : List (Order C)} (ho : PriceIn r.top o.price ∧ o.qty ≤ r.size)
    (hl : r.All l) : r.All (insertOrder side o l) := by
  intro x hx
  rcases mem_insertOrder.1 hx with rfl | hx
  · exact ho
  · exact hl x hx

theorem refPost_reprice (h : r.Ok) (side : Side) (cap room : Nat) {own : List (Order C)} {o : Order C}
    (ho : PriceIn r.top o.price ∧ o.qty ≤ r.size) (hl : r.All own) :
    Both r.Posted (refPost side cap room own o) (refPost (r.side side) cap room (own.map r.order) (r.order o)) := by
  have hd : r.All own.dropLast := fun x hx => hl x ((List.dropLast_prefix own).subset hx)
  unfold refPost
  rw [List.length_map, List.getLast?_map, insertOrder_reprice h side ho.1 hl, ← List.map_dropLast,
    insertOrder_reprice h side ho.1 hd]
  by_cases hc : own.length < cap
  · rw [if_pos hc, if_pos hc]; exact ⟨rfl, rfl, insertOrder_all ho hl, rfl⟩
  rw [if_neg hc, if_neg hc]
  cases hg : own.getLast? with
  | none => exact ⟨rfl, rfl, hl, rfl⟩
  | some w =>
    have hw := (hl w (List.mem_of_getLast? hg)).1
    simp only [Option.map_some, Reprice.order_price, h.asGood hw ho.1]
    by_cases h1 : side.asGood w.price o.price = true
    · simp only [h1, if_true]; exact ⟨rfl, rfl, hl, rfl⟩
    simp only [h1]
    by_cases h2 : room = 0
    · simp only [h2, if_true]; rfl
    · simp only [h2, if_false]; exact ⟨rfl, rfl, insertOrder_all ho hd, rfl⟩

/-! ### Markets -/

structure Reprice.Markets (r : Reprice) (a a' : RefMarket C) : Prop where
  minBase : a'.minBase = a.minBase * r.lots
  tick : 0 < a.tick
  tick' : 0 < a'.tick
  cap : ∀ s, a'.cap (r.side s) = a.cap s
  capEvents : a'.capEvents = a.capEvents
  seq : a'.seq = a.seq
  orders : ∀ s, a'.orders (r.side s) = (a.orders s).map r.order
  events : a'.events.map Event.noQuote = a.events.map r.event
  all : ∀ s, r.All (a.orders s)

theorem Reprice.Markets.eventsLength {a a' : RefMarket C} (h : r.Markets a a') : a'.events.length = a.events.length := by
  have := congrArg List.length h.events
  simpa using this

theorem RefMarket.orders_setOrders_ite (a : RefMarket C) (s s' : Side) (l : List (Order C)) :
    (a.setOrders s l).orders s' = if s' = s then l else a.orders s' := by
  cases s <;> cases s' <;> rfl

theorem Reprice.side_inj (r : Reprice) {s s' : Side} : r.side s = r.side s' ↔ s = s' := by
  unfold Reprice.side
  cases r.flip <;> cases s <;> cases s' <;> simp [Side.opposite]

/-- One side and the events replaced in both markets. -/
theorem Reprice.Markets.replaced {a a' : RefMarket C} (h : r.Markets a a') (s : Side) {l l' : List (Order C)} {n : Nat}
    {es es' : List (Event C)} (hl : l' = l.map r.order) (ha : r.All l) (he : es'.map Event.noQuote = es.map r.event) :
    r.Markets { a.setOrders s l with events := es, seq := n } { a'.setOrders (r.side s) l' with events := es', seq := n } := by
  have ho : ∀ (b : RefMarket C) (x : Side) (y : List (Order C)) (es : List (Event C)) (s' : Side),
      ({ b.setOrders x y with events := es, seq := n } : RefMarket C).orders s' = if s' = x then y else b.orders s' := by
    intro b x y es s'
    rw [← RefMarket.orders_setOrders_ite]
    cases s' <;> rfl
  have hc : ∀ (b : RefMarket C) (x : Side) (y : List (Order C)) (es : List (Event C)) (s' : Side),
      ({ b.setOrders x y with events := es, seq := n } : RefMarket C).cap s' = b.cap s' := by
    intro b x y es s'
    cases x <;> cases s' <;> rfl
  refine ⟨?_, ?_, ?_, fun s' => ?_, ?_, rfl, fun s' => ?_, he, fun s' => ?_⟩
  · have := h.minBase
    cases s <;> cases r.side _ <;> exact this
  · have := h.tick
    cases s <;> exact this
  · have := h.tick'
    cases r.side s <;> exact this
  · rw [hc, hc]; exact h.cap s'
  · have := h.capEvents
    cases s <;> cases r.side _ <;> exact this
  · rw [ho, ho]
    simp only [r.side_inj]
    by_cases hs : s' = s
    · rw [if_pos hs, if_pos hs]; exact hl
    · rw [if_neg hs, if_neg hs]; exact h.orders s'
  · rw [ho]
    by_cases hs : s' = s
    · rw [if_pos hs]; exact ha
    · rw [if_neg hs]; exact h.all s'

theorem RefMarket.with_seq (a : RefMarket C) (s : Side) (l : List (Order C)) (es : List (Event C)) :
    ({ a.setOrders s l with events := es } : RefMarket C) = { a.setOrders s l with events := es, seq := a.seq } := by
  cases s <;> rfl

theorem Reprice.Markets.replaced' {a a' : RefMarket C} (h : r.Markets a a') (s : Side) {l l' : List (Order C)}
    {es es' : List (Event C)} (hl : l' = l.map r.order) (ha : r.All l) (he : es'.map Event.noQuote = es.map r.event) :
    r.Markets { a.setOrders s l with events := es } { a'.setOrders (r.side s) l' with events := es' } := by
  rw [RefMarket.with_seq, RefMarket.with_seq, h.seq]
  exact h.replaced s hl ha he

/-- The results of two instructions are the same up to the change. -/
def Reprice.Results (r : Reprice) (y y' : OrderSummary × RefMarket C) : Prop := r.Answer y.1 y'.1 ∧ r.Markets y.2 y'.2

theorem finish_reprice (h : r.Ok) {k k' : Nat} {p p' : NewOrderParams C} (hp : r.Params k k' p p') {a a' : RefMarket C}
    (hm : r.Markets a a') {x x' : MatchOut C} (hx : r.Matched p.maxBaseQty x x') :
    Both r.Results (a.finish p x) (a'.finish p' x') := by
  have e1 : min (affordable x.quote p.limitPrice) x.base = x.base := min_eq_right (affordable_ge hp.range hx.quote)
  have e2 : min (affordable x'.quote p'.limitPrice) x'.base = x.base * r.lots := by
    rw [hx.base, hp.limit]
    exact min_eq_right (affordable_ge (h.range _ hp.range) hx.quote')
  have hev : (a'.events ++ x'.events).map Event.noQuote = (a.events ++ x.events).map r.event := by
    rw [List.map_append, List.map_append, hm.events, hx.events]
  have hlen : (a'.events ++ x'.events).length = (a.events ++ x.events).length := by
    have := congrArg List.length hev
    simpa using this
  have h1 := hm.replaced' p.side.opposite hx.opp hx.all hev
  have h2 := hm.replaced (n := a.seq + 1) p.side.opposite hx.opp hx.all hev
  unfold RefMarket.finish
  simp only
  rw [e1, e2, hx.crossed, hp.postAllowed, hm.minBase, hm.seq, hx.base, hp.base, hp.side, r.side_opposite, hp.cb]
  rw [show decide (x.base * r.lots < a.minBase * r.lots) = decide (x.base < a.minBase) by
    simp only [Nat.mul_lt_mul_right h.lots]]
  by_cases hc : (x.crossed || !p.postAllowed || decide (x.base < a.minBase)) = true
  · rw [if_pos hc, if_pos hc]
    exact ⟨⟨rfl, (Nat.sub_mul _ _ _).symm, (Nat.zero_mul _).symm⟩, h1⟩
  rw [if_neg hc, if_neg hc]
  by_cases hs : a.seq + 1 ≥ 2 ^ 64
  · rw [if_pos hs, if_pos hs]; rfl
  rw [if_neg hs, if_neg hs]
  have hid : mkOrderId (r.side p.side) p'.limitPrice a.seq = r.id (mkOrderId p.side p.limitPrice a.seq) := by
    rw [hp.limit]; exact r.mkOrderId _ _ (by omega)
  rw [hid]
  generalize hi : mkOrderId p.side p.limitPrice a.seq = i
  have hpi : i / 2 ^ 64 = p.limitPrice := by rw [← hi]; exact mkOrderId_div _ _ (by omega)
  have hown : ∀ (b : RefMarket C) (s : Side) (l : List (Order C)) (es : List (Event C)),
      ({ b.setOrders s.opposite l with events := es } : RefMarket C).orders s = b.orders s := by
    intro b s l es; cases s <;> rfl
  rw [hown, ← r.side_opposite, hown, hm.cap, hm.capEvents, hm.orders]
  have hl1 : ∀ (b : RefMarket C) (s : Side) (l : List (Order C)) (es : List (Event C)),
      ({ b.setOrders s l with events := es } : RefMarket C).events = es := fun _ _ _ _ => rfl
  rw [hlen]
  have hpost := refPost_reprice h p.side (a.cap p.side) (a.capEvents - (a.events ++ x.events).length)
    (own := a.orders p.side) (o := ⟨i, x.base, p.callbackInfo⟩)
    ⟨by show PriceIn _ (i / 2 ^ 64); rw [hpi]; exact hp.range, hx.le.trans hp.size⟩ (hm.all _)
  change Both _ _ (refPost _ _ _ _ ⟨r.id i, x.base * r.lots, p.callbackInfo⟩) at hpost
  revert hpost
  generalize refPost p.side _ _ _ _ = y
  generalize refPost (r.side p.side) _ _ _ _ = y'
  intro hpost
  cases y with
  | error e => cases y' with
    | error e' => cases hpost; rfl
    | ok _ => exact hpost.elim
  | ok po => cases y' with
    | error e' => exact hpost.elim
    | ok po' =>
      obtain ⟨q1, q2, q3, q4⟩ := hpost
      simp only [q1]
      have heva : (a'.events ++ x'.events ++ po'.events).map Event.noQuote =
          (a.events ++ x.events ++ po.events).map r.event := by
        rw [List.map_append, hev, q4, List.map_append (l₁ := a.events ++ x.events)]
      rw [r.side_opposite]
      cases po.posted with
      | false => exact ⟨⟨rfl, (Nat.sub_mul _ _ _).symm, (Nat.zero_mul _).symm⟩, h2⟩
      | true => exact ⟨⟨rfl, by simp, rfl⟩, h2.replaced' p.side q2 q3 heva⟩

theorem newOrder_reprice [CallbackInfo C] (h : r.Ok) {a a' : RefMarket C} (hm : r.Markets a a') {p p' : NewOrderParams C}
    (hp : r.Params a.tick a'.tick p p') : Both r.Results (a.newOrder p) (a'.newOrder p') := by
  rw [newOrder_eq, newOrder_eq, if_neg hm.tick.ne', if_neg hm.tick'.ne']
  have t : ∀ {k l : Nat} {P : Prop}, k ∣ l → 0 < l → ¬ (l % k ≠ 0 ∨ P ∧ l < k) := by
    intro k l P h1 h2 h3
    rcases h3 with h3 | h3
    · exact h3 (Nat.mod_eq_zero_of_dvd h1)
    · have := Nat.le_of_dvd h2 h1
      omega
  rw [if_neg (t hp.tick hp.range.pos), if_neg (t hp.tick' (by rw [hp.limit]; exact (h.range _ hp.range).pos)),
    hm.minBase, hp.matchLimit, hm.capEvents, hm.eventsLength, hp.side, r.side_opposite, hm.orders, hp.base]
  have hr := refMatch_reprice h hp (mb := a.minBase) p.matchLimit (a.capEvents - a.events.length)
    (a.orders p.side.opposite) p.maxBaseQty p.maxQuoteQty p'.maxQuoteQty true (hm.all _) hp.quote hp.quote'
  revert hr
  generalize refMatch p _ _ _ _ _ _ _ = y
  generalize refMatch p' _ _ _ _ _ _ _ = y'
  intro hr
  cases y with
  | error e => cases y' with
    | error e' => cases hr; rfl
    | ok _ => exact hr.elim
  | ok x => cases y' with
    | error e' => exact hr.elim
    | ok x' => exact finish_reprice h hp hm hr

/-! ### Cancelling -/

theorem find_mapOn {φ : Nat → Nat} {g : Order C → Order C} (hg : ∀ o, (g o).id = φ o.id) {id : Nat} : ∀ {l : List (Order C)},
    (∀ o ∈ l, φ o.id = φ id ↔ o.id = id) →
    (l.map g).find? (fun o => o.id == φ id) = (l.find? (fun o => o.id == id)).map g ∧
    (l.map g).filter (fun o => o.id != φ id) = (l.filter (fun o => o.id != id)).map g
  | [], _ => ⟨rfl, rfl⟩
  | o :: l, h => by
    obtain ⟨h1, h2⟩ := find_mapOn hg (l := l) (fun x hx => h x (List.mem_cons_of_mem _ hx))
    have e : (φ o.id == φ id) = (o.id == id) := by
      rw [Bool.eq_iff_iff, beq_iff_eq, beq_iff_eq, h o List.mem_cons_self]
    rw [List.map_cons, List.find?_cons, List.find?_cons, List.filter_cons, List.filter_cons, hg, bne, bne, e, h1, h2]
    cases (o.id == id) <;> exact ⟨rfl, rfl⟩

/-- Both find the order, or neither. -/
def Reprice.Found (r : Reprice) : Option (Order C × RefMarket C) → Option (Order C × RefMarket C) → Prop
  | some (o, a), some (o', a') => o' = r.order o ∧ PriceIn r.top o.price ∧ o.qty ≤ r.size ∧ r.Markets a a'
  | none, none => True
  | _, _ => False

theorem cancel1_found {a a' : RefMarket C} (hm : r.Markets a a') {id j : Nat} (hs : sideOfId j = r.side (sideOfId id))
    (hf : ((a.orders (sideOfId id)).map r.order).find? (fun o => o.id == j) =
        ((a.orders (sideOfId id)).find? (fun o => o.id == id)).map r.order ∧
      ((a.orders (sideOfId id)).map r.order).filter (fun o => o.id != j) =
        ((a.orders (sideOfId id)).filter (fun o => o.id != id)).map r.order) :
    r.Found (a.cancel1 id) (a'.cancel1 j) := by
  unfold RefMarket.cancel1
  rw [hs, hm.orders, hf.1, hf.2]
  cases hx : (a.orders (sideOfId id)).find? (fun o => o.id == id) with
  | none => trivial
  | some o =>
    have ho := hm.all _ _ (List.mem_of_find?_eq_some hx)
    refine ⟨rfl, ho.1, ho.2, ?_⟩
    have := hm.replaced (n := a.seq) (sideOfId id) (l := (a.orders (sideOfId id)).filter (fun o => o.id != id)) rfl
      (fun x hx => hm.all _ x (List.mem_of_mem_filter hx)) hm.events
    have e : ∀ (b : RefMarket C) (s : Side) (l : List (Order C)),
        ({ b.setOrders s l with events := b.events, seq := b.seq } : RefMarket C) = b.setOrders s l := by
      intro b s l; cases s <;> rfl
    rw [e] at this
    rw [← hm.seq, e] at this
    exact this

theorem cancel1_reprice (h : r.Ok) {a a' : RefMarket C} (hm : r.Markets a a') {id : Nat} (hi : PriceIn r.top (id / 2 ^ 64)) :
    r.Found (a.cancel1 id) (a'.cancel1 (r.id id)) :=
  cancel1_found hm (r.id_side id) (find_mapOn (φ := r.id) (Reprice.order_id (C := C) r)
    (fun o ho => h.id_inj (hm.all _ o ho).1 hi))

theorem massCancel_reprice (h : r.Ok) : ∀ (ids : List Nat) (b q q' : Nat) (a a' : RefMarket C), r.Markets a a' →
    (∀ id ∈ ids, PriceIn r.top (id / 2 ^ 64)) → (b + ids.length * r.size) * r.lots < 2 ^ 64 →
    q + ids.length * (r.size * r.top) < 2 ^ 64 → q' + ids.length * (r.size * r.lots * r.top') < 2 ^ 64 →
    Both (fun y y' => y'.1 = y.1 * r.lots ∧ r.Markets y.2.2 y'.2.2) (RefMarket.massCancelFrom ids b q a)
      (RefMarket.massCancelFrom (ids.map r.id) (b * r.lots) q' a')
  | [], _, _, _, _, _, hm, _, _, _, _ => ⟨rfl, hm⟩
  | id :: ids, b, q, q', a, a', hm, hi, hb, hq, hq' => by
    have hf := cancel1_reprice h hm (hi id List.mem_cons_self)
    simp only [List.map_cons, RefMarket.massCancelFrom]
    generalize r.id id = j at hf
    revert hf
    generalize a.cancel1 id = y
    generalize a'.cancel1 j = y'
    intro hf
    cases y with
    | none => cases y' with
      | none => rfl
      | some _ => exact hf.elim
    | some x => cases y' with
      | none => exact hf.elim
      | some x' =>
        obtain ⟨o, a1⟩ := x
        obtain ⟨o', a1'⟩ := x'
        obtain ⟨rfl, ho, hoq, hm1⟩ := hf
        simp only [Reprice.order_qty, Reprice.order_price]
        simp only [List.length_cons, Nat.succ_mul] at hb hq hq'
        have w1 : worth .ask o.qty o.price ≤ r.size * r.top :=
          (worth_le_top ho _ _).trans (Nat.mul_le_mul_right _ hoq)
        have w2 : worth .ask (o.qty * r.lots) (r.price o.price) ≤ r.size * r.lots * r.top' :=
          (worth_le_top (h.range _ ho) _ _).trans (Nat.mul_le_mul_right _ (Nat.mul_le_mul_right _ hoq))
        generalize worth .ask o.qty o.price = w at w1
        generalize worth .ask (o.qty * r.lots) (r.price o.price) = w' at w2
        have hb' : (b + o.qty + ids.length * r.size) * r.lots < 2 ^ 64 :=
          lt_of_le_of_lt (Nat.mul_le_mul_right _ (by omega)) hb
        have b1 : b + o.qty + ids.length * r.size < 2 ^ 64 := lt_of_le_of_lt (Nat.le_mul_of_pos_right _ h.lots) hb'
        have b2 : (b + o.qty) * r.lots < 2 ^ 64 := lt_of_le_of_lt (Nat.mul_le_mul_right _ (by omega)) hb'
        rw [← Nat.add_mul, if_pos (by omega), if_pos (by omega)]
        exact massCancel_reprice h ids _ _ _ _ _ hm1 (fun x hx => hi x (List.mem_cons_of_mem _ hx)) hb'
          (by omega) (by omega)

/-! ### Instructions and histories -/

/-- The same answer, if any, and markets that are the same up to the change. -/
def Reprice.Outcomes (r : Reprice) (y y' : Option OrderSummary × RefMarket C) : Prop :=
  (match y.1, y'.1 with
    | none, none => True
    | some s, some s' => r.Answer s s'
    | _, _ => False) ∧ r.Markets y.2 y'.2

theorem cancelOrder_of {a a' : RefMarket C} {id j : Nat} (hf : r.Found (a.cancel1 id) (a'.cancel1 j)) :
    Both r.Results (a.cancelOrder id) (a'.cancelOrder j) := by
  unfold RefMarket.cancelOrder
  revert hf
  generalize a.cancel1 id = y
  generalize a'.cancel1 j = y'
  intro hf
  cases y with
  | none => cases y' with
    | none => rfl
    | some _ => exact hf.elim
  | some x => cases y' with
    | none => exact hf.elim
    | some x' =>
      obtain ⟨o, m⟩ := x
      obtain ⟨o', m'⟩ := x'
      obtain ⟨rfl, ho, hoq, hm1⟩ := hf
      exact ⟨⟨rfl, rfl, (Nat.zero_mul _).symm⟩, hm1⟩

theorem massCancelOrders_of {a a' : RefMarket C} {ids js : List Nat}
    (hf : Both (fun y y' => y'.1 = y.1 * r.lots ∧ r.Markets y.2.2 y'.2.2) (RefMarket.massCancelFrom ids 0 0 a)
      (RefMarket.massCancelFrom js 0 0 a')) :
    Both r.Results (a.massCancelOrders ids) (a'.massCancelOrders js) := by
  unfold RefMarket.massCancelOrders
  revert hf
  generalize RefMarket.massCancelFrom ids 0 0 a = y
  generalize RefMarket.massCancelFrom js 0 0 a' = y'
  intro hf
  cases y with
  | error e => cases y' with
    | error e' => cases hf; rfl
    | ok _ => exact hf.elim
  | ok x => cases y' with
    | error e' => exact hf.elim
    | ok x' =>
      obtain ⟨b, q, m⟩ := x
      obtain ⟨b', q', m'⟩ := x'
      obtain ⟨hb, hm1⟩ := hf
      exact ⟨⟨rfl, hb, (Nat.zero_mul _).symm⟩, hm1⟩

theorem consume_reprice {a a' : RefMarket C} (hm : r.Markets a a') (n : Nat) :
    r.Markets { a with events := a.events.drop n } { a' with events := a'.events.drop n } := by
  refine ⟨hm.minBase, hm.tick, hm.tick', hm.cap, hm.capEvents, hm.seq, hm.orders, ?_, hm.all⟩
  show (a'.events.drop n).map _ = (a.events.drop n).map _
  rw [List.map_drop, List.map_drop, hm.events]

theorem massCancel_fits (h : r.Ok) {ids : List Nat} (hr : ∀ id ∈ ids, PriceIn r.top (id / 2 ^ 64))
    (l2 : ids.length * (r.size * r.lots * r.top') < 2 ^ 64) : ids.length * r.size * r.lots < 2 ^ 64 := by
  cases ids with
  | nil => simp
  | cons id ids =>
    have := (h.range _ (hr id List.mem_cons_self)).top_pos
    rw [Nat.mul_assoc]
    exact lt_of_le_of_lt (Nat.mul_le_mul_left _ (Nat.le_mul_of_pos_right _ this)) l2

/-- From a `Both` of two functions with an answer to one of instructions. -/
theorem Both.some_answer {x x' : Except Err (OrderSummary × RefMarket C)} (h : Both r.Results x x') :
    Both r.Outcomes (x.map (fun x => (some x.1, x.2))) (x'.map (fun x => (some x.1, x.2))) :=
  h.map (fun _ _ hxy => hxy)

theorem exec_cancel_reprice [CallbackInfo C] {a a' : RefMarket C} {id j : Nat}
    (hf : r.Found (a.cancel1 id) (a'.cancel1 j)) : Both r.Outcomes (a.exec (.cancelOrder id)) (a'.exec (.cancelOrder j)) :=
  (cancelOrder_of hf).some_answer

theorem exec_massCancel_reprice [CallbackInfo C] {a a' : RefMarket C} {ids js : List Nat}
    (hf : Both (fun y y' => y'.1 = y.1 * r.lots ∧ r.Markets y.2.2 y'.2.2) (RefMarket.massCancelFrom ids 0 0 a)
      (RefMarket.massCancelFrom js 0 0 a')) :
    Both r.Outcomes (a.exec (.massCancelOrders ids)) (a'.exec (.massCancelOrders js)) :=
  (massCancelOrders_of hf).some_answer

theorem Reprice.Found.of_eq {a a' : RefMarket C} {id j : Nat} (h : r.Ok) (hm : r.Markets a a')
    (hi : PriceIn r.top (id / 2 ^ 64)) (hj : j = r.id id) : r.Found (a.cancel1 id) (a'.cancel1 j) := by
  rw [hj]; exact cancel1_reprice h hm hi

theorem massCancel_of_eq {a a' : RefMarket C} {ids js : List Nat} (h : r.Ok) (hm : r.Markets a a')
    (hr : ∀ id ∈ ids, PriceIn r.top (id / 2 ^ 64)) (l1 : ids.length * (r.size * r.top) < 2 ^ 64)
    (l2 : ids.length * (r.size * r.lots * r.top') < 2 ^ 64) (hj : js = ids.map r.id) :
    Both (fun y y' => y'.1 = y.1 * r.lots ∧ r.Markets y.2.2 y'.2.2) (RefMarket.massCancelFrom ids 0 0 a)
      (RefMarket.massCancelFrom js 0 0 a') := by
  rw [hj]
  have := massCancel_reprice h ids 0 0 0 a a' hm hr (by rw [Nat.zero_add]; exact massCancel_fits h hr l2)
    (by rw [Nat.zero_add]; exact l1) (by rw [Nat.zero_add]; exact l2)
  rw [Nat.zero_mul] at this
  exact this

theorem exec_reprice [CallbackInfo C] (h : r.Ok) {a a' : RefMarket C} (hm : r.Markets a a') {i i' : Instr C}
    (hi : r.Instrs a.tick a'.tick i i') : Both r.Outcomes (a.exec i) (a'.exec i') := by
  cases i with
  | newOrder p =>
    cases i' with
    | newOrder p' => exact (newOrder_reprice h hm hi).some_answer
    | _ => exact hi.elim
  | cancelOrder id =>
    cases i' with
    | cancelOrder j => exact exec_cancel_reprice (Reprice.Found.of_eq h hm hi.2 hi.1)
    | _ => exact hi.elim
  | massCancelOrders ids =>
    cases i' with
    | massCancelOrders js => exact exec_massCancel_reprice (massCancel_of_eq h hm hi.2.1 hi.2.2.1 hi.2.2.2 hi.1)
    | _ => exact hi.elim
  | consumeEvents n =>
    cases i' with
    | consumeEvents n' =>
      have e : n' = n := hi
      rw [e]
      exact ⟨trivial, consume_reprice hm n⟩
    | _ => exact hi.elim

theorem step_reprice [CallbackInfo C] (h : r.Ok) {a a' : RefMarket C} (hm : r.Markets a a') {i i' : Instr C}
    (hi : r.Instrs a.tick a'.tick i i') : r.Markets (a.step i) (a'.step i') := by
  have := exec_reprice h hm hi
  unfold RefMarket.step
  revert this
  generalize a.exec i = y
  generalize a'.exec i' = y'
  intro this
  cases y with
  | error e => cases y' with
    | error e' => exact hm
    | ok _ => exact this.elim
  | ok x => cases y' with
    | error e' => exact this.elim
    | ok x' => exact this.2

end AOB
