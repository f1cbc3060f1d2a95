import Verif.Proofs.View
/-
`AbortTransaction` against `DecrementTake`: the same matching, except that it fails at the first self trade.
-/
namespace AOB
variable {C : Type} [CallbackInfo C]

/-- The same order, trading with itself. -/
def NewOrderParams.decrement (p : NewOrderParams C) : NewOrderParams C :=
  { p with selfTradeBehavior := .decrementTake }

/-- The event is a fill against an order of the taker's own callback id. -/
def selfFill (p : NewOrderParams C) (e : Event C) : Bool :=
  e.isFill && decide (CallbackInfo.asCallbackId p.callbackInfo = CallbackInfo.asCallbackId e.makerCb)

theorem any_emit {p : NewOrderParams C} {r : MatchOut C} (es : List (Event C)) (h : es.any (selfFill p) = false) :
    (MatchOut.emit es r).events.any (selfFill p) = r.events.any (selfFill p) := by
  simp [MatchOut.emit, List.any_append, h]

/-- `p'` is `p` with `DecrementTake`. -/
structure IsDecrement (p p' : NewOrderParams C) : Prop where
  limit : p'.limitPrice = p.limitPrice
  side : p'.side = p.side
  cb : p'.callbackInfo = p.callbackInfo
  postOnly : p'.postOnly = p.postOnly
  stb : p'.selfTradeBehavior = .decrementTake

theorem refMatch_abort {p p' : NewOrderParams C} (hd : IsDecrement p p')
    (hp : p.selfTradeBehavior = .abortTransaction) {minBase : Nat} :
    ∀ {ml room opp b q x r}, refMatch p' minBase ml room opp b q x = .ok r →
      refMatch p minBase ml room opp b q x =
        if r.events.any (selfFill p) then .error .wouldSelfTrade else .ok r := by
  intro ml
  induction ml with
  | zero =>
    intro room opp b q x r h
    simp only [refMatch, Except.ok.injEq] at h ⊢
    subst h
    simp
  | succ ml ih =>
    intro room opp b q x r h
    cases opp with
    | nil =>
      simp only [refMatch, Except.ok.injEq] at h ⊢
      subst h
      simp
    | cons o rest =>
      simp only [refMatch] at h ⊢
      simp only [hd.limit, hd.side, hd.cb, hd.postOnly] at h
      split at h
      · rename_i hc
        cases h
        rw [if_pos hc]; simp
      rename_i hc
      rw [if_neg hc]
      split at h
      · rename_i hz
        cases h
        rw [if_pos hz]; simp
      rename_i hz
      rw [if_neg hz]
      rw [if_neg (fun hh => hh.1 hd.stb)] at h
      have emit : ∀ {es : List (Event C)} {x : Except AoError (MatchOut C)} {r}, x.map (MatchOut.emit es) = .ok r →
          ∃ r', x = .ok r' ∧ r = r'.emit es := by
        intro es x r h
        cases x with
        | error e => cases h
        | ok r' => exact ⟨r', rfl, by cases h; rfl⟩
      by_cases hs : CallbackInfo.asCallbackId p.callbackInfo = CallbackInfo.asCallbackId o.cb
      · rw [if_pos ⟨by rw [hp]; decide, hs⟩, if_pos hp]
        have hany : r.events.any (selfFill p) = true := by
          split at h
          · split at h
            · cases h
            · obtain ⟨r', _, rfl⟩ := emit h
              simp [MatchOut.emit, selfFill, Event.isFill, Event.makerCb, hs]
          · split at h
            · cases h
            · obtain ⟨r', _, rfl⟩ := emit h
              simp [MatchOut.emit, selfFill, Event.isFill, Event.makerCb, hs]
        rw [hany]; simp
      · rw [if_neg (fun hh => hs hh.2)]
        split at h
        · rename_i hm
          rw [if_pos hm]
          split at h
          · cases h
          · rename_i hr
            rw [if_neg hr]
            obtain ⟨r', h1, rfl⟩ := emit h
            rw [ih h1]
            rw [any_emit _ (by simp [selfFill, Event.isFill, Event.makerCb, hs])]
            split <;> rfl
        · rename_i hm
          rw [if_neg hm]
          split at h
          · cases h
          · rename_i hr
            rw [if_neg hr]
            obtain ⟨r', h1, rfl⟩ := emit h
            rw [ih h1]
            rw [any_emit _ (by simp [selfFill, Event.isFill, Event.makerCb, hs])]
            split <;> rfl

theorem refMatch_abort_ok {p p' : NewOrderParams C} (hd : IsDecrement p p')
    (hp : p.selfTradeBehavior = .abortTransaction) {minBase : Nat} :
    ∀ {ml room opp b q x r}, refMatch p minBase ml room opp b q x = .ok r →
      refMatch p' minBase ml room opp b q x = .ok r := by
  intro ml
  induction ml with
  | zero => intro room opp b q x r h; exact h
  | succ ml ih =>
    intro room opp b q x r h
    cases opp with
    | nil => exact h
    | cons o rest =>
      simp only [refMatch] at h ⊢
      simp only [hd.limit, hd.side, hd.cb, hd.postOnly]
      have emit : ∀ {es : List (Event C)} {x : Except AoError (MatchOut C)} {r}, x.map (MatchOut.emit es) = .ok r →
          ∃ r', x = .ok r' ∧ r = r'.emit es := by
        intro es x r h
        cases x with
        | error e => cases h
        | ok r' => exact ⟨r', rfl, by cases h; rfl⟩
      split at h
      · rename_i hc; rw [if_pos hc]; exact h
      rename_i hc
      rw [if_neg hc]
      split at h
      · rename_i hz; rw [if_pos hz]; exact h
      rename_i hz
      rw [if_neg hz, if_neg (fun hh => hh.1 hd.stb)]
      split at h
      · cases h
      split at h
      · rename_i hm
        rw [if_pos hm]
        split at h
        · cases h
        · rename_i hr
          rw [if_neg hr]
          obtain ⟨r', h1, rfl⟩ := emit h
          rw [ih h1]; rfl
      · rename_i hm
        rw [if_neg hm]
        split at h
        · cases h
        · rename_i hr
          rw [if_neg hr]
          obtain ⟨r', h1, rfl⟩ := emit h
          rw [ih h1]; rfl

omit [CallbackInfo C] in
theorem NewOrderParams.isDecrement (p : NewOrderParams C) : IsDecrement p p.decrement :=
  ⟨rfl, rfl, rfl, rfl, rfl⟩

/-- The rest of a new order does not depend on the self trade behaviour. -/
theorem newOrder_congr {a : RefMarket C} {p p' : NewOrderParams C} (h1 : p'.maxBaseQty = p.maxBaseQty)
    (h2 : p'.maxQuoteQty = p.maxQuoteQty) (h3 : p'.limitPrice = p.limitPrice) (h4 : p'.side = p.side)
    (h5 : p'.matchLimit = p.matchLimit) (h6 : p'.callbackInfo = p.callbackInfo)
    (h7 : p'.postAllowed = p.postAllowed)
    (h : refMatch p' a.minBase p.matchLimit (a.capEvents - a.events.length) (a.orders p.side.opposite)
        p.maxBaseQty p.maxQuoteQty true =
      refMatch p a.minBase p.matchLimit (a.capEvents - a.events.length) (a.orders p.side.opposite)
        p.maxBaseQty p.maxQuoteQty true) : a.newOrder p' = a.newOrder p := by
  unfold RefMarket.newOrder
  simp only [h1, h2, h3, h4, h5, h6, h7, h]

theorem newOrder_abort_ok {a : RefMarket C} {p : NewOrderParams C} (hp : p.selfTradeBehavior = .abortTransaction)
    {x} (h : a.newOrder p = .ok x) : a.newOrder p.decrement = .ok x := by
  rw [← h]
  apply newOrder_congr <;> try rfl
  unfold RefMarket.newOrder at h
  split at h
  · cases h
  split at h
  · cases h
  split at h
  · cases h
  · rename_i r hr
    rw [hr]
    exact refMatch_abort_ok p.isDecrement hp hr

theorem newOrder_abort_err {a : RefMarket C} {p : NewOrderParams C} (hp : p.selfTradeBehavior = .abortTransaction)
    {s a' n r} (h : a.newOrder p.decrement = .ok (s, a')) (hn : NewOk a p.decrement s a' n r) :
    a.newOrder p = if r.events.any (selfFill p) then .error (.ao .wouldSelfTrade) else .ok (s, a') := by
  have hr : refMatch p.decrement a.minBase p.matchLimit (a.capEvents - a.events.length)
    (a.orders p.side.opposite) p.maxBaseQty p.maxQuoteQty true = .ok r := hn.run
  have hm := refMatch_abort p.isDecrement hp hr
  split
  · rename_i hany
    rw [if_pos hany] at hm
    have ht := hn.tick
    unfold RefMarket.newOrder
    rw [if_neg (by omega), if_neg, hm]
    rintro (h1 | h1)
    · exact h1 ht.2.1
    · have := ht.2.2 h1.1
      have h2 := h1.2
      simp only [NewOrderParams.decrement] at this
      omega
  · rename_i hany
    rw [if_neg hany] at hm
    rw [← h]
    symm
    apply newOrder_congr <;> try rfl
    rw [hm]; exact hr

end AOB
