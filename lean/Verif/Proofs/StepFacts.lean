import Verif.Proofs.Steps
import Verif.Spec.Observe
/-
Consequences of a run of matching steps, in terms of the events it emits.
-/
namespace AOB
variable {C : Type}

section lists
theorem sumBase_cons (e : Event C) (es) : sumBase (e :: es) = e.base + sumBase es := by simp [sumBase]
theorem sumQuote_cons (e : Event C) (es) : sumQuote (e :: es) = e.quote + sumQuote es := by simp [sumQuote]
@[simp] theorem sumBase_nil : sumBase ([] : List (Event C)) = 0 := rfl
@[simp] theorem sumQuote_nil : sumQuote ([] : List (Event C)) = 0 := rfl
theorem sumBase_append (a b : List (Event C)) : sumBase (a ++ b) = sumBase a + sumBase b := by simp [sumBase]
theorem sumQuote_append (a b : List (Event C)) : sumQuote (a ++ b) = sumQuote a + sumQuote b := by
  simp [sumQuote]

@[simp] theorem fills_nil : fills ([] : List (Event C)) = [] := rfl
@[simp] theorem fills_fill (s : Side) (i b q : Nat) (m t : C) (es) :
    fills (.fill s i b q m t :: es) = .fill s i b q m t :: fills es := rfl
@[simp] theorem fills_out (s : Side) (i b : Nat) (c : C) (es) :
    fills (.out s i b c :: es) = fills es := rfl
@[simp] theorem fills_append (a b : List (Event C)) : fills (a ++ b) = fills a ++ fills b := by simp [fills]

@[simp] theorem outsOf_nil (id : Nat) : outsOf id ([] : List (Event C)) = [] := rfl
@[simp] theorem outsOf_fill (id : Nat) (s : Side) (i b q : Nat) (m t : C) (es) :
    outsOf id (.fill s i b q m t :: es) = outsOf id es := rfl
theorem outsOf_out (id : Nat) (s : Side) (i b : Nat) (c : C) (es) :
    outsOf id (.out s i b c :: es) = if i = id then .out s i b c :: outsOf id es else outsOf id es := by
  unfold outsOf
  by_cases h : i = id
  · rw [List.filter_cons_of_pos (by simp [Event.isOut, Event.id, h]), if_pos h]
  · rw [List.filter_cons_of_neg (by simp [Event.isOut, Event.id, h]), if_neg h]
@[simp] theorem outsOf_append (id : Nat) (a b : List (Event C)) :
    outsOf id (a ++ b) = outsOf id a ++ outsOf id b := by simp [outsOf]

@[simp] theorem fillsOf_nil (id : Nat) : fillsOf id ([] : List (Event C)) = [] := rfl
@[simp] theorem fillsOf_out (id : Nat) (s : Side) (i b : Nat) (c : C) (es) :
    fillsOf id (.out s i b c :: es) = fillsOf id es := rfl
theorem fillsOf_fill (id : Nat) (s : Side) (i b q : Nat) (m t : C) (es) :
    fillsOf id (.fill s i b q m t :: es) =
      if i = id then .fill s i b q m t :: fillsOf id es else fillsOf id es := by
  unfold fillsOf
  by_cases h : i = id
  · rw [List.filter_cons_of_pos (by simp [Event.isFill, Event.id, h]), if_pos h]
  · rw [List.filter_cons_of_neg (by simp [Event.isFill, Event.id, h]), if_neg h]
@[simp] theorem fillsOf_append (id : Nat) (a b : List (Event C)) :
    fillsOf id (a ++ b) = fillsOf id a ++ fillsOf id b := by simp [fillsOf]

/-- Events that do not name an id. -/
theorem outsOf_eq_nil {id : Nat} {es : List (Event C)} (h : ∀ e ∈ es, e.id ≠ id) : outsOf id es = [] := by
  unfold outsOf
  rw [List.filter_eq_nil_iff]
  intro e he
  simp [h e he]

theorem fillsOf_eq_nil {id : Nat} {es : List (Event C)} (h : ∀ e ∈ es, e.id ≠ id) : fillsOf id es = [] := by
  unfold fillsOf
  rw [List.filter_eq_nil_iff]
  intro e he
  simp [h e he]

theorem survivor_unnamed {es : List (Event C)} {x : Order C} (h : ∀ e ∈ es, e.id ≠ x.id) :
    survivor es x = some x := by
  simp [survivor, outsOf_eq_nil h, fillsOf_eq_nil h]
end lists

variable [CallbackInfo C]
variable {p : NewOrderParams C} {minBase : Nat}

/-- Every event names an order that was resting on the opposite side. -/
theorem Steps.named {n opp b q es opp' b' q'} (h : Steps p minBase n opp b q es opp' b' q') :
    ∀ e ∈ es, ∃ o ∈ opp, e.id = o.id ∧ e.makerCb = o.cb ∧ e.makerSide = p.side.opposite := by
  induction h with
  | refl => simp
  | @selfOut n o rest b q es opp' b' q' _ _ _ _ ih =>
    intro e he
    rcases List.mem_cons.1 he with rfl | he
    · exact ⟨o, by simp, rfl, rfl, rfl⟩
    · obtain ⟨x, hx, h⟩ := ih e he
      exact ⟨x, List.mem_cons_of_mem _ hx, h⟩
  | @fillOut n o rest b q es opp' b' q' _ _ _ _ ih =>
    intro e he
    rcases List.mem_cons.1 he with rfl | he
    · exact ⟨o, by simp, rfl, rfl, rfl⟩
    rcases List.mem_cons.1 he with rfl | he
    · exact ⟨o, by simp, rfl, rfl, rfl⟩
    · obtain ⟨x, hx, h⟩ := ih e he
      exact ⟨x, List.mem_cons_of_mem _ hx, h⟩
  | @fillKeep n o rest b q es opp' b' q' _ _ _ _ ih =>
    intro e he
    rcases List.mem_cons.1 he with rfl | he
    · exact ⟨o, by simp, rfl, rfl, rfl⟩
    · obtain ⟨x, hx, h⟩ := ih e he
      rcases List.mem_cons.1 hx with rfl | hx
      · exact ⟨o, by simp, h⟩
      · exact ⟨x, List.mem_cons_of_mem _ hx, h⟩

theorem Steps.sums {n opp b q es opp' b' q'} (h : Steps p minBase n opp b q es opp' b' q') :
    b = b' + sumBase (fills es) ∧ q = q' + sumQuote (fills es) := by
  induction h with
  | refl => simp
  | selfOut _ _ _ _ ih => simpa using ih
  | @fillOut n o rest b q es opp' b' q' _ _ _ _ ih =>
    have h1 := (tradeQty_le (o := o) (b := b) (q := q)).2.1
    have h2 := worth_trade_le (p := p) (o := o) (b := b) (q := q)
    simp only [fills_fill, fills_out, sumBase_cons, sumQuote_cons, Event.base, Event.quote]
    omega
  | @fillKeep n o rest b q es opp' b' q' _ _ _ _ ih =>
    have h1 := (tradeQty_le (o := o) (b := b) (q := q)).2.1
    have h2 := worth_trade_le (p := p) (o := o) (b := b) (q := q)
    simp only [fills_fill, sumBase_cons, sumQuote_cons, Event.base, Event.quote]
    omega

/-- Shape of the fills. -/
theorem Steps.fill {n opp b q es opp' b' q'} (h : Steps p minBase n opp b q es opp' b' q') :
    ∀ e ∈ es, e.isFill = true → ∃ o ∈ opp, ∃ t, e = .fill p.side o.id t (worth p.side t o.price) o.cb p.callbackInfo ∧
      0 < t ∧ 0 < worth p.side t o.price ∧ t ≤ o.qty ∧ p.side.accepts p.limitPrice o.price = true ∧
      ¬ SelfTrade p o ∧ p.postOnly = false := by
  induction h with
  | refl => simp
  | @selfOut n o rest b q es opp' b' q' _ _ _ _ ih =>
    intro e he hf
    rcases List.mem_cons.1 he with rfl | he
    · cases hf
    · obtain ⟨x, hx, h⟩ := ih e he hf
      exact ⟨x, List.mem_cons_of_mem _ hx, h⟩
  | @fillOut n o rest b q es opp' b' q' ht hs _ _ ih =>
    intro e he hf
    rcases List.mem_cons.1 he with rfl | he
    · exact ⟨o, by simp, _, rfl, Nat.pos_of_ne_zero ht.qty, Nat.pos_of_ne_zero ht.value, tradeQty_le.1,
        ht.accepts, hs, ht.noPostOnly⟩
    rcases List.mem_cons.1 he with rfl | he
    · cases hf
    · obtain ⟨x, hx, h⟩ := ih e he hf
      exact ⟨x, List.mem_cons_of_mem _ hx, h⟩
  | @fillKeep n o rest b q es opp' b' q' ht hs _ _ ih =>
    intro e he hf
    rcases List.mem_cons.1 he with rfl | he
    · exact ⟨o, by simp, _, rfl, Nat.pos_of_ne_zero ht.qty, Nat.pos_of_ne_zero ht.value, tradeQty_le.1,
        ht.accepts, hs, ht.noPostOnly⟩
    · obtain ⟨x, hx, t, h1, h2, h3, h4, h5⟩ := ih e he hf
      rcases List.mem_cons.1 hx with rfl | hx
      · exact ⟨o, by simp, t, h1, h2, h3, le_trans h4 (Nat.sub_le _ _), h5⟩
      · exact ⟨x, List.mem_cons_of_mem _ hx, t, h1, h2, h3, h4, h5⟩

theorem Steps.events_length {n opp b q es opp' b' q'} (h : Steps p minBase n opp b q es opp' b' q') :
    es.length ≤ 2 * n := by
  induction h with
  | refl => simp
  | selfOut _ _ _ _ ih => simp only [List.length_cons]; omega
  | fillOut _ _ _ _ ih => simp only [List.length_cons]; omega
  | fillKeep _ _ _ _ ih => simp only [List.length_cons]; omega

omit [CallbackInfo C] in
private theorem nodup_cons_ne {o : Order C} {rest : List (Order C)} (h : ((o :: rest).map Order.id).Nodup) :
    (∀ x ∈ rest, o.id ≠ x.id) ∧ (rest.map Order.id).Nodup := by
  rw [List.map_cons, List.nodup_cons] at h
  exact ⟨fun x hx he => h.1 (he ▸ List.mem_map_of_mem hx), h.2⟩

theorem Steps.not_named {n opp b q es opp' b' q'} (h : Steps p minBase n opp b q es opp' b' q')
    {id : Nat} (hid : ∀ o ∈ opp, o.id ≠ id) : ∀ e ∈ es, e.id ≠ id := by
  intro e he heq
  obtain ⟨o, ho, h1, _⟩ := h.named e he
  exact hid o ho (h1.symm.trans heq)

/-- The opposite side after matching is determined by the events. -/
theorem Steps.survive {n opp b q es opp' b' q'} (h : Steps p minBase n opp b q es opp' b' q')
    (hnd : (opp.map Order.id).Nodup) : opp' = opp.filterMap (survivor es) := by
  induction h with
  | @refl opp b q =>
    have : survivor ([] : List (Event C)) = some := by
      funext x; simp [survivor]
    rw [this, List.filterMap_some]
  | @selfOut n o rest b q es opp' b' q' _ _ _ hst ih =>
    obtain ⟨h1, h2⟩ := nodup_cons_ne hnd
    rw [ih h2, List.filterMap_cons]
    have : survivor (Event.out p.side.opposite o.id o.qty o.cb :: es) o = none := by
      simp [survivor, outsOf_out]
    rw [this]
    apply List.filterMap_congr
    intro x hx
    have := h1 x hx
    simp [survivor, outsOf_out, this]
  | @fillOut n o rest b q es opp' b' q' _ _ _ hst ih =>
    obtain ⟨h1, h2⟩ := nodup_cons_ne hnd
    rw [ih h2, List.filterMap_cons]
    have : survivor (Event.fill p.side o.id (tradeQty o b q) (worth p.side (tradeQty o b q) o.price) o.cb p.callbackInfo ::
         .out p.side.opposite o.id (o.qty - tradeQty o b q) o.cb :: es) o = none := by
      simp [survivor, outsOf_out]
    rw [this]
    apply List.filterMap_congr
    intro x hx
    have := h1 x hx
    simp [survivor, outsOf_out, fillsOf_fill, this]
  | @fillKeep n o rest b q es opp' b' q' _ _ _ hst ih =>
    obtain ⟨h1, h2⟩ := nodup_cons_ne hnd
    rw [ih (by simpa using hnd), List.filterMap_cons, List.filterMap_cons]
    have e1 : survivor es { o with qty := o.qty - tradeQty o b q } =
        survivor (Event.fill p.side o.id (tradeQty o b q) (worth p.side (tradeQty o b q) o.price) o.cb
          p.callbackInfo :: es) o := by
      simp only [survivor, outsOf_fill, fillsOf_fill, if_true, sumBase_cons, Event.base, Nat.sub_sub]
    have e2 : rest.filterMap (survivor (Event.fill p.side o.id (tradeQty o b q)
        (worth p.side (tradeQty o b q) o.price) o.cb p.callbackInfo :: es)) = rest.filterMap (survivor es) := by
      apply List.filterMap_congr
      intro x hx
      have := h1 x hx
      simp [survivor, fillsOf_fill, this]
    rw [e1, e2]

/-- The out events of one order. -/
theorem Steps.outs {n opp b q es opp' b' q'} (h : Steps p minBase n opp b q es opp' b' q')
    (hnd : (opp.map Order.id).Nodup) : ∀ x ∈ opp, sumBase (fillsOf x.id es) ≤ x.qty ∧
      (outsOf x.id es = [] ∨
       outsOf x.id es = [.out p.side.opposite x.id (x.qty - sumBase (fillsOf x.id es)) x.cb]) := by
  induction h with
  | refl => simp
  | @selfOut n o rest b q es opp' b' q' _ _ _ hst ih =>
    obtain ⟨h1, h2⟩ := nodup_cons_ne hnd
    intro x hx
    rcases List.mem_cons.1 hx with rfl | hx
    · have hn := hst.not_named (fun o ho => Ne.symm (h1 o ho))
      simp [outsOf_out, outsOf_eq_nil hn, fillsOf_eq_nil hn]
    · have := h1 x hx
      simpa [outsOf_out, this] using ih h2 x hx
  | @fillOut n o rest b q es opp' b' q' _ _ _ hst ih =>
    obtain ⟨h1, h2⟩ := nodup_cons_ne hnd
    intro x hx
    rcases List.mem_cons.1 hx with rfl | hx
    · have hn := hst.not_named (fun o ho => Ne.symm (h1 o ho))
      simp [outsOf_out, outsOf_eq_nil hn, fillsOf_fill, fillsOf_eq_nil hn, sumBase_cons, Event.base, tradeQty_le.1]
    · have := h1 x hx
      simpa [outsOf_out, fillsOf_fill, this] using ih h2 x hx
  | @fillKeep n o rest b q es opp' b' q' _ _ _ hst ih =>
    obtain ⟨h1, h2⟩ := nodup_cons_ne hnd
    have ih := ih (by simpa using hnd)
    intro x hx
    rcases List.mem_cons.1 hx with rfl | hx
    · have := ih _ List.mem_cons_self
      have h3 := (tradeQty_le (o := x) (b := b) (q := q)).1
      simp only at this
      simp only [outsOf_fill, fillsOf_fill, if_true, sumBase_cons, Event.base]
      refine ⟨by omega, ?_⟩
      rw [← Nat.sub_sub]
      exact this.2
    · have := h1 x hx
      simpa [outsOf_out, fillsOf_fill, this] using ih x (by simp [hx])

theorem Steps.rounds {n opp b q es opp' b' q'} (h : Steps p minBase n opp b q es opp' b' q') :
    n = AOB.rounds p es := by
  unfold AOB.rounds
  induction h with
  | refl => rfl
  | @selfOut n o rest b q es opp' b' q' _ hs _ hst ih =>
    rw [List.filter_cons_of_pos, List.length_cons, ih]
    simp [Event.makerSide, Event.makerCb, hs.1, hs.2]
  | @fillOut n o rest b q es opp' b' q' _ hs _ hst ih =>
    rw [List.filter_cons_of_pos (by simp [Event.isFill]), List.length_cons, ih, List.filter_cons_of_neg]
    intro h
    apply hs
    simp only [Event.isFill, Event.makerSide, Event.makerCb, Bool.false_or, Bool.and_eq_true, beq_self_eq_true,
      true_and, bne_iff_ne] at h
    exact ⟨h.1, of_decide_eq_true h.2⟩
  | @fillKeep n o rest b q es opp' b' q' _ hs _ hst ih =>
    rw [List.filter_cons_of_pos (by simp [Event.isFill]), List.length_cons, ih]

omit [CallbackInfo C] in
private theorem sublist_pair_cons {x y o : Order C} {rest : List (Order C)}
    (h : [x, y].Sublist (o :: rest)) : (x = o ∧ y ∈ rest) ∨ [x, y].Sublist rest := by
  cases h with
  | cons _ h => exact Or.inr h
  | cons_cons _ h => exact Or.inl ⟨rfl, by simpa using h⟩

/-- Priority: when a lower ranked order is named, the better one went out before, for good. -/
theorem Steps.priority {n opp b q es opp' b' q'} (h : Steps p minBase n opp b q es opp' b' q')
    (hnd : (opp.map Order.id).Nodup) : ∀ x y, [x, y].Sublist opp → (∃ e ∈ es, e.id = y.id) →
      ∃ es1 es2, es = es1 ++ es2 ∧ (∀ e ∈ es1, e.id ≠ y.id) ∧ (∀ e ∈ es2, e.id ≠ x.id) ∧
        outsOf x.id es1 ≠ [] := by
  induction h with
  | refl => simp
  | @selfOut n o rest b q es opp' b' q' _ hs _ hst ih =>
    obtain ⟨h1, h2⟩ := nodup_cons_ne hnd
    rintro x y hxy ⟨e, he, hid⟩
    rcases sublist_pair_cons hxy with ⟨rfl, hy⟩ | hxy
    · refine ⟨[Event.out p.side.opposite x.id x.qty x.cb], es, rfl, ?_,
        hst.not_named (fun o ho => Ne.symm (h1 o ho)), by simp [outsOf_out]⟩
      simpa [Event.id] using h1 y hy
    · have hy : y ∈ rest := hxy.subset (by simp)
      have hx : x ∈ rest := hxy.subset (by simp)
      rcases List.mem_cons.1 he with rfl | he
      · exact absurd hid (h1 y hy)
      obtain ⟨es1, es2, rfl, g1, g2, g3⟩ := ih h2 x y hxy ⟨e, he, hid⟩
      refine ⟨_ :: es1, es2, rfl, ?_, g2, by simpa [outsOf_out, h1 x hx] using g3⟩
      intro e he
      rcases List.mem_cons.1 he with rfl | he
      · exact h1 y hy
      · exact g1 e he
  | @fillOut n o rest b q es opp' b' q' _ hs _ hst ih =>
    obtain ⟨h1, h2⟩ := nodup_cons_ne hnd
    rintro x y hxy ⟨e, he, hid⟩
    rcases sublist_pair_cons hxy with ⟨rfl, hy⟩ | hxy
    · refine ⟨[_, _], es, rfl, ?_, hst.not_named (fun o ho => Ne.symm (h1 o ho)), by simp [outsOf_out]⟩
      simpa [Event.id] using h1 y hy
    · have hy : y ∈ rest := hxy.subset (by simp)
      have hx : x ∈ rest := hxy.subset (by simp)
      rcases List.mem_cons.1 he with rfl | he
      · exact absurd hid (h1 y hy)
      rcases List.mem_cons.1 he with rfl | he
      · exact absurd hid (h1 y hy)
      obtain ⟨es1, es2, rfl, g1, g2, g3⟩ := ih h2 x y hxy ⟨e, he, hid⟩
      refine ⟨_ :: _ :: es1, es2, rfl, ?_, g2, by simpa [outsOf_out, h1 x hx] using g3⟩
      intro e he
      rcases List.mem_cons.1 he with rfl | he
      · exact h1 y hy
      rcases List.mem_cons.1 he with rfl | he
      · exact h1 y hy
      · exact g1 e he
  | @fillKeep n o rest b q es opp' b' q' _ hs _ hst ih =>
    obtain ⟨h1, h2⟩ := nodup_cons_ne hnd
    have ih := ih (by simpa using hnd)
    rintro x y hxy ⟨e, he, hid⟩
    have hy : y ∈ rest := by
      rcases sublist_pair_cons hxy with ⟨rfl, hy⟩ | hxy
      · exact hy
      · exact hxy.subset (by simp)
    rcases List.mem_cons.1 he with rfl | he
    · exact absurd hid (h1 y hy)
    have : ∃ x' : Order C, x'.id = x.id ∧ [x', y].Sublist ({ o with qty := o.qty - tradeQty o b q } :: rest) := by
      rcases sublist_pair_cons hxy with ⟨rfl, hy⟩ | hxy
      · exact ⟨{ x with qty := x.qty - tradeQty x b q }, rfl, List.Sublist.cons_cons _ (by simpa using hy)⟩
      · exact ⟨x, rfl, List.Sublist.cons _ hxy⟩
    obtain ⟨x', hx', hsub⟩ := this
    obtain ⟨es1, es2, rfl, g1, g2, g3⟩ := ih x' y hsub ⟨e, he, hid⟩
    refine ⟨_ :: es1, es2, rfl, ?_, hx' ▸ g2, by simpa [hx'] using g3⟩
    intro e he
    rcases List.mem_cons.1 he with rfl | he
    · exact h1 y hy
    · exact g1 e he

/-- Every trade is as large as the resting order, the remaining base and the remaining quote allow. -/
theorem Steps.maximal {n opp b q es opp' b' q'} (h : Steps p minBase n opp b q es opp' b' q')
    (hnd : (opp.map Order.id).Nodup) :
    ∀ es1 s id t v mc tc es2, es = es1 ++ .fill s id t v mc tc :: es2 → ∃ x ∈ opp, x.id = id ∧
      t = min (min (x.qty - sumBase (fillsOf id es1)) (b - sumBase (fills es1)))
        (affordable (q - sumQuote (fills es1)) x.price) := by
  induction h with
  | refl => intro es1 s id t v mc tc es2 h; simp at h
  | @selfOut n o rest b q es opp' b' q' _ hs _ hst ih =>
    obtain ⟨h1, h2⟩ := nodup_cons_ne hnd
    intro es1 s id t v mc tc es2 h
    cases es1 with
    | nil => simp at h
    | cons e es1 =>
      simp only [List.cons_append, List.cons.injEq] at h
      obtain ⟨rfl, h⟩ := h
      obtain ⟨x, hx, rfl, ht⟩ := ih h2 es1 s id t v mc tc es2 h
      exact ⟨x, by simp [hx], rfl, by simpa using ht⟩
  | @fillOut n o rest b q es opp' b' q' _ hs _ hst ih =>
    obtain ⟨h1, h2⟩ := nodup_cons_ne hnd
    intro es1 s id t v mc tc es2 h
    cases es1 with
    | nil =>
      simp only [List.nil_append, List.cons.injEq, Event.fill.injEq] at h
      obtain ⟨⟨_, rfl, rfl, _⟩, _⟩ := h
      exact ⟨o, by simp, rfl, by simp [tradeQty]⟩
    | cons e es1 =>
      simp only [List.cons_append, List.cons.injEq] at h
      obtain ⟨rfl, h⟩ := h
      cases es1 with
      | nil => simp at h
      | cons e es1 =>
        simp only [List.cons_append, List.cons.injEq] at h
        obtain ⟨rfl, h⟩ := h
        obtain ⟨x, hx, rfl, ht⟩ := ih h2 es1 s id t v mc tc es2 h
        refine ⟨x, by simp [hx], rfl, ?_⟩
        have := h1 x hx
        simp only [fills_fill, fills_out, fillsOf_fill, fillsOf_out, sumBase_cons, sumQuote_cons, if_neg this,
          Event.base, Event.quote, ← Nat.sub_sub]
        exact ht
  | @fillKeep n o rest b q es opp' b' q' _ hs _ hst ih =>
    obtain ⟨h1, h2⟩ := nodup_cons_ne hnd
    have ih := ih (by simpa using hnd)
    intro es1 s id t v mc tc es2 h
    cases es1 with
    | nil =>
      simp only [List.nil_append, List.cons.injEq, Event.fill.injEq] at h
      obtain ⟨⟨_, rfl, rfl, _⟩, _⟩ := h
      exact ⟨o, by simp, rfl, by simp [tradeQty]⟩
    | cons e es1 =>
      simp only [List.cons_append, List.cons.injEq] at h
      obtain ⟨rfl, h⟩ := h
      obtain ⟨x, hx, rfl, ht⟩ := ih es1 s id t v mc tc es2 h
      rcases List.mem_cons.1 hx with rfl | hx
      · refine ⟨o, by simp, rfl, ?_⟩
        simp only [fills_fill, fillsOf_fill, sumBase_cons, sumQuote_cons, if_true,
          Event.base, Event.quote, ← Nat.sub_sub]
        exact ht
      · refine ⟨x, by simp [hx], rfl, ?_⟩
        have := h1 x hx
        simp only [fills_fill, fillsOf_fill, sumBase_cons, sumQuote_cons, if_neg this,
          Event.base, Event.quote, ← Nat.sub_sub]
        exact ht

/-- If the best opposite order cannot be touched, nothing happens. -/
theorem Steps.stuck {n opp b q es opp' b' q'} (h : Steps p minBase n opp b q es opp' b' q')
    (hn : ∀ x rest, opp = x :: rest → ¬ Touch p x b q) : n = 0 ∧ es = [] ∧ opp' = opp ∧ b' = b ∧ q' = q := by
  induction h with
  | refl => exact ⟨rfl, rfl, rfl, rfl, rfl⟩
  | selfOut ht _ _ _ _ => exact absurd ht (hn _ _ rfl)
  | fillOut ht _ _ _ _ => exact absurd ht (hn _ _ rfl)
  | fillKeep ht _ _ _ _ => exact absurd ht (hn _ _ rfl)

/-- The touched orders are at most one per round. -/
theorem Steps.touched {n opp b q es opp' b' q'} (h : Steps p minBase n opp b q es opp' b' q')
    (hnd : (opp.map Order.id).Nodup) :
    (opp.filter (fun x => es.any (fun e => e.id == x.id))).length ≤ n := by
  have key : ∀ {o : Order C} {rest : List (Order C)} {es1 es : List (Event C)},
      (∀ x ∈ rest, o.id ≠ x.id) → (∀ e ∈ es1, e.id = o.id) →
      (((o :: rest).filter (fun x => (es1 ++ es).any (fun e => e.id == x.id))).length ≤
        (rest.filter (fun x => es.any (fun e => e.id == x.id))).length + 1) := by
    intro o rest es1 es h1 h2
    have : rest.filter (fun x => (es1 ++ es).any (fun e => e.id == x.id)) =
        rest.filter (fun x => es.any (fun e => e.id == x.id)) := by
      apply List.filter_congr
      intro x hx
      rw [List.any_append]
      have : es1.any (fun e => e.id == x.id) = false := by
        rw [List.any_eq_false]
        intro e he
        simp [h2 e he, h1 x hx]
      rw [this, Bool.false_or]
    rw [List.filter_cons]
    split
    · rw [List.length_cons, this]
    · rw [this]; omega
  induction h with
  | refl => simp
  | @selfOut n o rest b q es opp' b' q' _ hs _ hst ih =>
    obtain ⟨h1, h2⟩ := nodup_cons_ne hnd
    exact le_trans (key (es1 := [_]) h1 (by simp [Event.id])) (Nat.succ_le_succ (ih h2))
  | @fillOut n o rest b q es opp' b' q' _ hs _ hst ih =>
    obtain ⟨h1, h2⟩ := nodup_cons_ne hnd
    exact le_trans (key (es1 := [_, _]) h1 (by simp [Event.id])) (Nat.succ_le_succ (ih h2))
  | @fillKeep n o rest b q es opp' b' q' _ hs _ hst ih =>
    obtain ⟨h1, h2⟩ := nodup_cons_ne hnd
    refine le_trans (key (es1 := [_]) h1 (by simp [Event.id])) (Nat.succ_le_succ (le_trans ?_ (ih (by simpa using hnd))))
    rw [List.filter_cons]
    split
    · rw [List.length_cons]; omega
    · exact le_refl _

/-- What one order of the opposite side can go through. -/
theorem Steps.fate {minBase : Nat} {n opp b q es opp' b' q'} (h : Steps p minBase n opp b q es opp' b' q')
    (hnd : (opp.map Order.id).Nodup) : ∀ x ∈ opp, (∃ e ∈ es, e.id = x.id) →
      (SelfTrade p x ∧ p.selfTradeBehavior = .cancelProvide) ∨
      (¬ SelfTrade p x ∧ fillsOf x.id es ≠ [] ∧
        ((∃ o ∈ opp', o.id = x.id) ↔ minBase ≤ x.qty - sumBase (fillsOf x.id es))) := by
  induction h with
  | refl => rintro x _ ⟨e, he, _⟩; cases he
  | @selfOut n o rest b q es opp' b' q' _ hs hab hst ih =>
    obtain ⟨h1, h2⟩ := nodup_cons_ne hnd
    rintro x hx ⟨e, he, heq⟩
    rcases List.mem_cons.1 hx with rfl | hx
    · exact .inl ⟨hs, hab⟩
    · have hne : o.id ≠ x.id := h1 x hx
      rcases List.mem_cons.1 he with rfl | he
      · exact absurd heq hne
      · simpa using ih h2 x hx ⟨e, he, heq⟩
  | @fillOut n o rest b q es opp' b' q' _ hs hm hst ih =>
    obtain ⟨h1, h2⟩ := nodup_cons_ne hnd
    rintro x hx ⟨e, he, heq⟩
    rcases List.mem_cons.1 hx with rfl | hx
    · right
      have hno : ∀ e ∈ es, e.id ≠ x.id := hst.not_named (fun y hy => fun h => h1 y hy h.symm)
      have hf : fillsOf x.id es = [] := fillsOf_eq_nil hno
      refine ⟨hs, by simp [fillsOf_fill], ?_⟩
      rw [fillsOf_fill, if_pos rfl, fillsOf_out, hf, sumBase_cons]
      simp only [Event.base, sumBase_nil, Nat.add_zero]
      constructor
      · rintro ⟨y, hy, hyx⟩
        rw [hst.survive h2] at hy
        obtain ⟨z, hz, hzy⟩ := List.mem_filterMap.1 hy
        unfold survivor at hzy
        split at hzy
        · cases hzy; exact absurd hyx.symm (h1 z hz)
        · cases hzy
      · intro h; omega
    · have hne : o.id ≠ x.id := h1 x hx
      have he' : e ∈ es := by
        rcases List.mem_cons.1 he with rfl | he
        · exact absurd heq hne
        rcases List.mem_cons.1 he with rfl | he
        · exact absurd heq hne
        · exact he
      simpa [fillsOf_fill, hne] using ih h2 x hx ⟨e, he', heq⟩
  | @fillKeep n o rest b q es opp' b' q' _ hs hm hst ih =>
    obtain ⟨h1, h2⟩ := nodup_cons_ne hnd
    have hnd' : ((({ o with qty := o.qty - tradeQty o b q } : Order C) :: rest).map Order.id).Nodup := by
      simpa using hnd
    have ht := (tradeQty_le (o := o) (b := b) (q := q)).1
    rintro x hx ⟨e, he, heq⟩
    rcases List.mem_cons.1 hx with rfl | hx
    · right
      refine ⟨hs, by simp [fillsOf_fill], ?_⟩
      rw [fillsOf_fill, if_pos rfl, sumBase_cons]
      simp only [Event.base]
      by_cases hn : ∃ e ∈ es, e.id = x.id
      · rcases ih hnd' { x with qty := x.qty - tradeQty x b q } (by simp) hn with ⟨h3, _⟩ | ⟨_, _, h3⟩
        · exact absurd h3 hs
        · rw [h3]; simp only [Nat.sub_sub]
      · have hn' : ∀ e ∈ es, e.id ≠ x.id := fun e he h => hn ⟨e, he, h⟩
        rw [fillsOf_eq_nil hn', sumBase_nil, Nat.add_zero]
        refine ⟨fun _ => hm, fun _ => ⟨{ x with qty := x.qty - tradeQty x b q }, ?_, rfl⟩⟩
        rw [hst.survive hnd']
        exact List.mem_filterMap.2 ⟨{ x with qty := x.qty - tradeQty x b q }, by simp, survivor_unnamed hn'⟩
    · have hne : o.id ≠ x.id := h1 x hx
      have he' : e ∈ es := by
        rcases List.mem_cons.1 he with rfl | he
        · exact absurd heq hne
        · exact he
      simpa [fillsOf_fill, hne] using ih hnd' x (by simp [hx]) ⟨e, he', heq⟩

end AOB
