import Verif.Proofs.Depth
import Verif.Props.Best
import Verif.Props.Client
/-
C87: the depth that is shown is the depth that can be traded.
-/
namespace AOB
variable {C : Type} [CallbackInfo C] {m m' : Market C} {p : NewOrderParams C} {s : OrderSummary}

/-- C87: a new order that may take, owns none of the orders it accepts (or asked for `DecrementTake`), and whose match limit and
quote cap suffice for what it wants, takes the acceptable orders one after the other, best first, of each as much as there
is, until it has all it wants or there are no more; each piece at its rounded value. A seller's limit is at least one quote unit. -/
theorem C87_fills (h : Reachable m) (hp : (Instr.newOrder p).Ok) (he : m.newOrder p = .ok (s, m'))
    (hpost : p.postOnly = false)
    (hown : p.selfTradeBehavior ≠ .decrementTake → ∀ o ∈ acceptable m p,
      CallbackInfo.asCallbackId p.callbackInfo ≠ CallbackInfo.asCallbackId o.cb)
    (hunit : p.side = .bid ∨ 2 ^ 32 ≤ p.limitPrice)
    (hlimit : (greedy p.maxBaseQty (acceptable m p)).length ≤ p.matchLimit)
    (hcap : costOf (greedy p.maxBaseQty (acceptable m p)) ≤ p.maxQuoteQty) :
    (fills (emitted m m')).map (fun e => (e.id, e.base, e.quote)) =
      (greedy p.maxBaseQty (acceptable m p)).map (fun x => (x.1.id, x.2, worth p.side x.2 x.1.price)) := by
  obtain ⟨a, a', n, r, ex, v⟩ := h.view hp he
  have hacc : acceptable m p = accepted p (a.orders p.side.opposite) := by rw [← v.rest]; rfl
  rw [hacc] at hown hlimit hcap ⊢
  have hord : Ordered p.side (a.orders p.side.opposite) := by
    rw [← v.rest]
    refine (C02_rank_is_price h p.side.opposite).imp ?_
    intro x y hxy
    cases hs : p.side <;> rw [hs] at hxy <;> exact hxy
  have := v.ok.steps.greedy v.ok.stop hpost v.known.minBase hord
    (fun o ho => ⟨by have := (v.known.inv.ok _ o ho).min; have := v.known.minBase; omega, (v.known.inv.ok _ o ho).price_pos⟩)
    (fun o ho hs => hown hs.1 o ho hs.2) hunit (by have := v.ok.limit; omega) hcap
  rw [v.fills]
  exact this

/-- C87: so it trades all it wants, or all there is. -/
theorem C87_total (h : Reachable m) (hp : (Instr.newOrder p).Ok) (he : m.newOrder p = .ok (s, m'))
    (hpost : p.postOnly = false)
    (hown : p.selfTradeBehavior ≠ .decrementTake → ∀ o ∈ acceptable m p,
      CallbackInfo.asCallbackId p.callbackInfo ≠ CallbackInfo.asCallbackId o.cb)
    (hunit : p.side = .bid ∨ 2 ^ 32 ≤ p.limitPrice)
    (hlimit : (greedy p.maxBaseQty (acceptable m p)).length ≤ p.matchLimit)
    (hcap : costOf (greedy p.maxBaseQty (acceptable m p)) ≤ p.maxQuoteQty) :
    sumBase (fills (emitted m m')) = min p.maxBaseQty (depthFor m p) := by
  have h1 := C87_fills h hp he hpost hown hunit hlimit hcap
  have h2 := congrArg (fun l => (l.map (fun x => x.2.1)).sum) h1
  simp only [List.map_map] at h2
  have e1 : ((fun x : Nat × Nat × Nat => x.2.1) ∘ fun e : Event C => (e.id, e.base, e.quote)) = Event.base := rfl
  have e2 : ((fun x : Nat × Nat × Nat => x.2.1) ∘ fun x : Order C × Nat => (x.1.id, x.2, worth p.side x.2 x.1.price)) = Prod.snd := rfl
  rw [e1, e2, greedy_total] at h2
  exact h2

omit [CallbackInfo C] in
theorem sum_sizes (f : Nat → Bool) : ∀ (l : List (Order C)) (P : List Nat), P.Nodup → (∀ o ∈ l, o.price ∈ P) →
    ((P.filter f).map (fun q => ((l.filter (fun o => o.price == q)).map Order.qty).sum)).sum =
      ((l.filter (fun o => f o.price)).map Order.qty).sum := by
  intro l
  induction l with
  | nil => intro P _ _; simp
  | cons o l ih =>
    intro P hP hl
    have ih' := ih P hP (fun x hx => hl x (by simp [hx]))
    have key : ∀ Q : List Nat, Q.Nodup →
        (Q.map (fun q => (((o :: l).filter (fun o => o.price == q)).map Order.qty).sum)).sum =
          (if o.price ∈ Q then o.qty else 0) + (Q.map (fun q => ((l.filter (fun o => o.price == q)).map Order.qty).sum)).sum := by
      intro Q
      induction Q with
      | nil => intro _; simp
      | cons q Q ihQ =>
        intro hQ
        rw [List.nodup_cons] at hQ
        have := ihQ hQ.2
        rw [List.map_cons, List.sum_cons, List.map_cons, List.sum_cons, this, List.filter_cons]
        by_cases hq : o.price = q
        · subst hq
          rw [if_pos (by simp), if_neg hQ.1, if_pos (by simp), List.map_cons, List.sum_cons]
          omega
        · rw [if_neg (by simpa using hq)]
          by_cases hm : o.price ∈ Q
          · rw [if_pos hm, if_pos (by simp [hm])]; omega
          · rw [if_neg hm, if_neg (by simp [hm, hq])]; omega
    rw [key _ (hP.filter _), ih', List.filter_cons]
    by_cases hf : f o.price = true
    · rw [if_pos hf, if_pos (List.mem_filter.2 ⟨hl o (by simp), hf⟩), List.map_cons, List.sum_cons]
    · rw [if_neg hf, if_neg (fun hm => hf (List.mem_filter.1 hm).2), Nat.zero_add]

/-- C87: the depth an order finds is the total of the levels, as the client shows them (C51), at prices it accepts. -/
theorem C87_levels (descending : Bool) :
    depthFor m p = (((Js.levels (Js.listed p.side.opposite descending (resting m p.side.opposite))).filter
      (fun l => p.side.accepts p.limitPrice l.price)).map Js.Price.size).sum := by
  have hl : ∀ l : List (Order C), (((Js.levels l).filter (fun x => p.side.accepts p.limitPrice x.price)).map Js.Price.size).sum =
      ((l.filter (fun o => p.side.accepts p.limitPrice o.price)).map Order.qty).sum := by
    intro l
    rw [← sum_sizes (fun q => p.side.accepts p.limitPrice q) l (l.map Order.price).eraseDups
      (Js.nodup_eraseDups _ _ (Nat.le_refl _)) (fun o ho => List.mem_eraseDups.2 (List.mem_map_of_mem ho))]
    unfold Js.levels
    rw [List.filter_map, List.map_map]
    rfl
  rw [hl]
  unfold depthFor acceptable
  generalize resting m p.side.opposite = l
  have : ∀ (side : Side) (l : List (Order C)), ((l.reverse.filter (fun o => side.accepts p.limitPrice o.price)).map Order.qty).sum =
      ((l.filter (fun o => side.accepts p.limitPrice o.price)).map Order.qty).sum := by
    intro side l
    rw [List.filter_reverse, List.map_reverse, List.sum_reverse]
  cases p.side <;> cases descending <;> simp only [Side.opposite, Js.listed] <;> rw [this]

/-! ### Concrete cases -/

/-- User 9 sees 12 at price 10 and 6 at price 11. They get the 14 they want. -/
theorem demo_depth_buy : demo.newOrder (demoOrder .bid 14 11 9) =
    .ok (⟨none, 14, 142, 0⟩, demo.step (.newOrder (demoOrder .bid 14 11 9))) := by decide +kernel

example := C87_fills demo_reachable (p := demoOrder .bid 14 11 9) (by decide) demo_depth_buy rfl (by decide +kernel)
  (.inl rfl) (by decide +kernel) (by decide +kernel)
example := C87_total demo_reachable (p := demoOrder .bid 14 11 9) (by decide) demo_depth_buy rfl (by decide +kernel)
  (.inl rfl) (by decide +kernel) (by decide +kernel)
example : (greedy 14 (acceptable demo (demoOrder .bid 14 11 9))).map (fun x => (x.1.cb.user, x.2)) = [(1, 5), (3, 7), (2, 2)] ∧
    depthFor demo (demoOrder .bid 14 11 9) = 18 ∧ depthFor demo (demoOrder .bid 14 10 9) = 12 := by decide +kernel

/-- A seller who wants more than there is. -/
theorem demo_depth_sell : demo.newOrder (demoOrder .ask 30 9 9) =
    .ok (⟨some (9 * 2 ^ 96 + 6), 30, 270, 18⟩, demo.step (.newOrder (demoOrder .ask 30 9 9))) := by decide +kernel

example := C87_total demo_reachable (p := demoOrder .ask 30 9 9) (by decide) demo_depth_sell rfl (by decide +kernel)
  (.inr (by decide)) (by decide +kernel) (by decide +kernel)

end AOB
