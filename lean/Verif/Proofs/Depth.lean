import Verif.Spec.Depth
import Verif.Proofs.Best
/-
Matching against orders one does not own, with a quote cap and a match limit that suffice, is greedy.
-/
namespace AOB
variable {C : Type}

@[simp] theorem greedy_zero (l : List (Order C)) : greedy 0 l = [] := by cases l <;> rfl

theorem greedy_total : ∀ (l : List (Order C)) (b : Nat),
    ((greedy b l).map Prod.snd).sum = min b ((l.map Order.qty).sum) := by
  intro l
  induction l with
  | nil => intro b; simp [greedy]
  | cons o l ih =>
    intro b
    rw [greedy]
    split
    · rename_i h; simp [h]
    · rw [List.map_cons, List.sum_cons, ih, List.map_cons, List.sum_cons]
      dsimp only
      omega

variable [CallbackInfo C] {p : NewOrderParams C} {minBase : Nat}

/-- The orders accepted. -/
def accepted (p : NewOrderParams C) (l : List (Order C)) : List (Order C) :=
  l.filter (fun o => p.side.accepts p.limitPrice o.price)

omit [CallbackInfo C] in
theorem accepted_head_no {o : Order C} {rest : List (Order C)} (ho : Ordered p.side (o :: rest))
    (h : p.side.accepts p.limitPrice o.price = false) : accepted p (o :: rest) = [] := by
  unfold accepted
  rw [List.filter_eq_nil_iff]
  intro x hx
  rcases List.mem_cons.1 hx with rfl | hx
  · simp [h]
  · have := List.rel_of_pairwise_cons ho hx
    revert h this
    cases p.side <;> simp only [Side.accepts, decide_eq_false_iff_not, decide_eq_true_eq] <;> omega

omit [CallbackInfo C] in
/-- A trade for which the quote cap suffices is as large as the two quantities permit, and worth something. -/
theorem trade_full {o : Order C} {b q : Nat} (hq : 0 < o.qty) (hb : 0 < b) (hp : 0 < o.price)
    (hc : worth .bid (min o.qty b) o.price ≤ q) (hu : p.side = .bid ∨ 2 ^ 32 ≤ o.price) :
    tradeQty o b q = min o.qty b ∧ worth p.side (min o.qty b) o.price ≠ 0 := by
  have ht : 0 < min o.qty b := by omega
  generalize hmt : min o.qty b = t at *
  have hexact : t * o.price ≤ q * 2 ^ 32 := by
    unfold worth at hc
    dsimp only at hc
    generalize t * o.price = x at *
    omega
  constructor
  · unfold tradeQty affordable
    have : t ≤ q * 2 ^ 32 / o.price := (Nat.le_div_iff_mul_le hp).2 hexact
    rw [hmt]; exact Nat.min_eq_left this
  · have h1 : 1 ≤ t * o.price := Nat.mul_pos ht hp
    have h2 : o.price ≤ t * o.price := Nat.le_mul_of_pos_left _ ht
    unfold worth
    rcases hu with hu | hu
    · rw [hu]
      dsimp only
      generalize t * o.price = x at *
      omega
    · cases p.side <;> dsimp only <;> (generalize t * o.price = x at *; omega)

theorem worth_le_bid (side : Side) (t price : Nat) : worth side t price ≤ worth .bid t price := by
  unfold worth
  generalize t * price = x
  cases side <;> dsimp only <;> omega

/-- The pieces of the fills. -/
def fillPieces (es : List (Event C)) : List (Nat × Nat × Nat) := (fills es).map (fun e => (e.id, e.base, e.quote))

theorem Steps.greedy {n opp b q es opp' b' q'} (h : Steps p minBase n opp b q es opp' b' q') :
    ∀ {left crossed}, StopAt p left opp' b' q' crossed → p.postOnly = false → 0 < minBase → Ordered p.side opp →
    (∀ o ∈ opp, 0 < o.qty ∧ 0 < o.price) → (∀ o ∈ accepted p opp, ¬ SelfTrade p o) →
    (p.side = .bid ∨ 2 ^ 32 ≤ p.limitPrice) → (AOB.greedy b (accepted p opp)).length ≤ n + left →
    costOf (AOB.greedy b (accepted p opp)) ≤ q →
    fillPieces es = (AOB.greedy b (accepted p opp)).map (fun x => (x.1.id, x.2, worth p.side x.2 x.1.price)) := by
  -- an accepted head
  have head : ∀ {o : Order C} {rest : List (Order C)}, p.side.accepts p.limitPrice o.price = true →
      accepted p (o :: rest) = o :: accepted p rest := by
    intro o rest ha
    unfold accepted
    rw [List.filter_cons_of_pos (by simpa using ha)]
  have unit : ∀ {o : Order C}, (p.side = .bid ∨ 2 ^ 32 ≤ p.limitPrice) → p.side.accepts p.limitPrice o.price = true →
      p.side = .bid ∨ 2 ^ 32 ≤ o.price := by
    intro o hu ha
    rcases hu with hu | hu
    · exact .inl hu
    · cases hs : p.side
      · exact .inl rfl
      · right
        rw [hs] at ha
        simp only [Side.accepts, decide_eq_true_eq] at ha
        omega
  induction h with
  | @refl opp b q =>
    intro left crossed hst hpo hmin hord hpos hown hu hlen hcost
    suffices hs : AOB.greedy b (accepted p opp) = [] by rw [hs]; rfl
    rcases hst with ⟨rfl, -⟩ | ⟨-, hst⟩
    · exact List.eq_nil_of_length_eq_zero (by omega)
    · cases opp with
      | nil => rfl
      | cons o rest =>
        by_cases ha : p.side.accepts p.limitPrice o.price = true
        · by_cases hb : b = 0
          · subst hb; simp
          · exfalso
            rw [head ha, AOB.greedy, if_neg hb] at hcost
            simp only [costOf, List.map_cons, List.sum_cons] at hcost
            obtain ⟨h1, h2⟩ := hpos o (by simp)
            obtain ⟨t1, t2⟩ := trade_full (p := p) (q := q) h1 (Nat.pos_of_ne_zero hb) h2 (by omega) (unit hu ha)
            exact hst.2 ⟨hpo, ha, by rw [t1]; omega, by rw [t1]; exact t2⟩
        · rw [accepted_head_no hord (by simpa using ha)]; rfl
  | @selfOut n o rest b q es opp' b' q' ht hs hab h ih =>
    intro left crossed hst hpo hmin hord hpos hown
    exact absurd hs (hown o (by rw [head ht.accepts]; simp))
  | @fillOut n o rest b q es opp' b' q' ht hs hm h ih =>
    intro left crossed hst hpo hmin hord hpos hown hu hlen hcost
    have hb : b ≠ 0 := fun hb => ht.qty (by have := tradeQty_le (o := o) (b := b) (q := q); omega)
    rw [head ht.accepts, AOB.greedy, if_neg hb] at hlen hcost ⊢
    simp only [costOf, List.map_cons, List.sum_cons, List.length_cons] at hcost hlen
    obtain ⟨h1, h2⟩ := hpos o (by simp)
    obtain ⟨t1, t2⟩ := trade_full (p := p) (q := q) h1 (Nat.pos_of_ne_zero hb) h2 (by omega) (unit hu ht.accepts)
    rw [t1] at ih ⊢
    have hw := worth_le_bid p.side (min o.qty b) o.price
    have := ih hst hpo hmin (List.Pairwise.of_cons hord) (fun x hx => hpos x (by simp [hx]))
      (fun x hx => hown x (by rw [head ht.accepts]; simp [hx])) hu (by omega) (by unfold costOf; omega)
    simp only [fillPieces, fills_fill, fills_out, List.map_cons, Event.id, Event.base, Event.quote] at this ⊢
    rw [this]
  | @fillKeep n o rest b q es opp' b' q' ht hs hm h ih =>
    intro left crossed hst hpo hmin hord hpos hown hu hlen hcost
    have hb : b ≠ 0 := fun hb => ht.qty (by have := tradeQty_le (o := o) (b := b) (q := q); omega)
    rw [head ht.accepts, AOB.greedy, if_neg hb] at hlen hcost ⊢
    simp only [costOf, List.map_cons, List.sum_cons, List.length_cons] at hcost hlen
    obtain ⟨h1, h2⟩ := hpos o (by simp)
    obtain ⟨t1, t2⟩ := trade_full (p := p) (q := q) h1 (Nat.pos_of_ne_zero hb) h2 (by omega) (unit hu ht.accepts)
    rw [t1] at ih hm ⊢
    have hbt : b - min o.qty b = 0 := by omega
    rw [hbt] at ih ⊢
    have hw := worth_le_bid p.side (min o.qty b) o.price
    have := ih hst hpo hmin ?_ ?_ ?_ hu (by simp) (by simp [costOf])
    · simp only [greedy_zero, fillPieces, fills_fill, List.map_cons, List.map_nil, Event.id, Event.base, Event.quote] at this ⊢
      rw [this]
    · exact List.pairwise_cons.2 ⟨fun x hx => List.rel_of_pairwise_cons hord hx, List.Pairwise.of_cons hord⟩
    · intro x hx
      rcases List.mem_cons.1 hx with rfl | hx
      · exact ⟨by show 0 < o.qty - _; omega, h2⟩
      · exact hpos x (by simp [hx])
    · intro x hx
      have ha : p.side.accepts p.limitPrice ({ o with qty := o.qty - min o.qty b } : Order C).price = true := ht.accepts
      rw [head ha] at hx
      rcases List.mem_cons.1 hx with rfl | hx
      · exact hs
      · exact hown x (by rw [head ht.accepts]; simp [hx])

end AOB
