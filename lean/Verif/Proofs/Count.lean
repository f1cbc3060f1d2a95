import Verif.Proofs.View
import Verif.Spec.Count
/-
How often a matching run trades without taking the resting order off the book.
-/
namespace AOB
variable {C : Type}

section lists
@[simp] theorem outsFrom_nil (side : Side) : outsFrom side ([] : List (Event C)) = [] := rfl
@[simp] theorem outsFrom_fill (side s : Side) (i b q : Nat) (m t : C) (es) :
    outsFrom side (.fill s i b q m t :: es) = outsFrom side es := rfl
@[simp] theorem outsFrom_out (side : Side) (i b : Nat) (c : C) (es) :
    outsFrom side (.out side i b c :: es) = .out side i b c :: outsFrom side es := by
  unfold outsFrom
  rw [List.filter_cons_of_pos (by simp [Event.isOut, Event.makerSide])]
@[simp] theorem outsFrom_append (side : Side) (a b : List (Event C)) :
    outsFrom side (a ++ b) = outsFrom side a ++ outsFrom side b := by simp [outsFrom]
end lists

variable [CallbackInfo C] {p : NewOrderParams C} {minBase : Nat}

/-- Each fill is worth something. -/
theorem Steps.fills_le_quote {n opp b q es opp' b' q'} (h : Steps p minBase n opp b q es opp' b' q') :
    (fills es).length ≤ q := by
  induction h with
  | refl => simp
  | selfOut _ _ _ _ ih => simpa using ih
  | @fillOut n o rest b q es opp' b' q' ht _ _ _ ih =>
    have h1 := worth_trade_le (p := p) (o := o) (b := b) (q := q)
    have h2 := ht.value
    simp only [fills_fill, fills_out, List.length_cons]
    omega
  | @fillKeep n o rest b q es opp' b' q' ht _ _ _ ih =>
    have h1 := worth_trade_le (p := p) (o := o) (b := b) (q := q)
    have h2 := ht.value
    simp only [fills_fill, List.length_cons]
    omega

/-- No step if the first order cannot be touched. -/
theorem Steps.stop {n o rest b q es opp' b' q'} (h : Steps p minBase n (o :: rest) b q es opp' b' q')
    (hz : ¬ Touch p o b q) : es = [] := by
  cases h with
  | refl => rfl
  | selfOut ht => exact absurd ht hz
  | fillOut ht => exact absurd ht hz
  | fillKeep ht => exact absurd ht hz

/-- A trade that is neither for the whole order nor for all the base wanted is for all that can be afforded. -/
theorem keep_cases {o : Order C} {b q : Nat} (hm : 0 < minBase) (hk : minBase ≤ o.qty - tradeQty o b q) :
    b - tradeQty o b q = 0 ∨ tradeQty o b q = q * 2 ^ 32 / o.price := by
  unfold tradeQty affordable at *
  omega

theorem untouched_base {o : Order C} {q : Nat} : ¬ Touch p o 0 q := by
  intro h
  exact h.qty (by unfold tradeQty; omega)

theorem untouched_quote {o : Order C} {b q : Nat} (h : q * 2 ^ 32 < o.price) : ¬ Touch p o b q := by
  intro ht
  refine ht.qty ?_
  unfold tradeQty affordable
  rw [Nat.div_eq_of_lt h]
  omega

theorem spent {q t price : Nat} (h0 : t ≠ 0) (ht : t = q * 2 ^ 32 / price) :
    0 < price ∧ q * 2 ^ 32 < t * price + price := by
  have hp : 0 < price := by
    rcases Nat.eq_zero_or_pos price with h | h
    · rw [h, Nat.div_zero] at ht; exact absurd ht h0
    · exact h
  refine ⟨hp, ?_⟩
  have := Nat.lt_mul_div_succ (q * 2 ^ 32) hp
  rw [← ht, Nat.mul_add, Nat.mul_one, Nat.mul_comm price t] at this
  exact this

/-- What is left to a buyer does not pay for one more. -/
theorem left_bid {q t price X : Nat} (hX : t * price = X) (hp : 0 < price) (h : q * 2 ^ 32 < X + price) :
    (q - worth .bid t price) * 2 ^ 32 < price := by
  have e : X ≤ worth .bid t price * 2 ^ 32 := by
    show X ≤ (t * price + (2 ^ 32 - 1)) / 2 ^ 32 * 2 ^ 32
    rw [hX]; omega
  revert e
  generalize worth .bid t price = v
  omega

theorem worth_ask_lt {t price X : Nat} (hX : t * price = X) : X < worth .ask t price * 2 ^ 32 + 2 ^ 32 := by
  show X < t * price / 2 ^ 32 * 2 ^ 32 + 2 ^ 32
  rw [hX]; omega

/-- What is left to a seller pays for less than one and one quote unit. -/
theorem left_ask {q t price X : Nat} (hX : t * price = X) (hp : 0 < price) (h : q * 2 ^ 32 < X + price) :
    (q - worth .ask t price) * 2 ^ 32 < price + 2 ^ 32 := by
  have e := worth_ask_lt hX
  revert e
  generalize worth .ask t price = v
  omega

theorem left_ask2 {k t price X : Nat} (hX : t * price = X) (h : price ≤ X) (hk : k * 2 ^ 32 < price + 2 ^ 32) :
    k - worth .ask t price ≤ 1 := by
  have e := worth_ask_lt hX
  revert e
  generalize worth .ask t price = v
  omega

/-- A run of matching steps trades at most once (for a seller twice) without taking the resting order off the book. -/
theorem Steps.fills_le_outs (hm : 0 < minBase) {n opp b q es opp' b' q'}
    (h : Steps p minBase n opp b q es opp' b' q') :
    (fills es).length ≤ (outsFrom p.side.opposite es).length + p.side.spare := by
  induction h with
  | refl => simp
  | selfOut _ _ _ _ ih => simp only [fills_out, outsFrom_out, List.length_cons]; omega
  | fillOut _ _ _ _ ih => simp only [fills_fill, fills_out, outsFrom_fill, outsFrom_out, List.length_cons]; omega
  | @fillKeep n o rest b q es opp' b' q' ht hs hk h _ =>
    simp only [fills_fill, outsFrom_fill, List.length_cons]
    rcases keep_cases hm hk with hb | hq
    · rw [hb] at h
      rw [h.stop untouched_base]
      cases p.side <;> exact Nat.le_of_ble_eq_true rfl
    obtain ⟨hp, hlt⟩ := spent ht.qty hq
    cases hside : p.side with
    | bid =>
      rw [hside] at h
      have hl := left_bid rfl hp hlt
      rw [h.stop (untouched_quote hl)]
      exact Nat.le_of_ble_eq_true rfl
    | ask =>
      rw [hside] at h
      have hq' := left_ask rfl hp hlt
      revert h hq'
      generalize tradeQty o b q = t at hk
      generalize q - worth .ask t o.price = k
      intro h hq'
      have hfe := h.fills_le_quote
      show _ ≤ (outsFrom Side.bid es).length + 2
      by_cases hone : k ≤ 1
      · omega
      have hop : 2 ^ 32 < o.price := by omega
      have rest1 : ∀ {t' : Nat}, t' ≠ 0 → k - worth .ask t' o.price ≤ 1 := fun h0 =>
        left_ask2 rfl (Nat.le_mul_of_pos_left _ (Nat.pos_of_ne_zero h0)) hq'
      cases h with
      | refl => exact Nat.le_of_ble_eq_true rfl
      | selfOut ht2 hs2 _ _ => exact absurd hs2 hs
      | fillOut ht2 hs2 hm2 h2 =>
        have r1 := rest1 ht2.qty
        have f := h2.fills_le_quote
        rw [hside] at f ⊢
        simp only [fills_fill, fills_out, outsFrom_fill, Side.opposite, outsFrom_out, List.length_cons]
        have e : ∀ (x : Nat), ({ o with qty := x } : Order C).price = o.price := fun _ => rfl
        rw [e] at f
        omega
      | fillKeep ht2 hs2 hm2 h2 =>
        have r1 := rest1 ht2.qty
        rw [hside] at h2
        have f := h2.stop (untouched_quote (Nat.lt_of_le_of_lt (Nat.mul_le_mul_right _ r1) (by
          show 1 * 2 ^ 32 < o.price
          omega)))
        rw [f]
        exact Nat.le_add_left _ _

private theorem length_fillsOf_le (id : Nat) (es : List (Event C)) : (fillsOf id es).length ≤ (fills es).length := by
  unfold fillsOf fills
  rw [← List.countP_eq_length_filter, ← List.countP_eq_length_filter]
  exact List.countP_mono_left (fun e _ h => by simp only [Bool.and_eq_true] at h; exact h.1)

private theorem fills_gone {n o rest b q es opp' b' q'} (h : Steps p minBase n rest b q es opp' b' q')
    (hn : ((o :: rest).map Order.id).Nodup) : fillsOf o.id es = [] := by
  refine fillsOf_eq_nil (fun e he heq => ?_)
  obtain ⟨x, hx, h1, _⟩ := h.named e he
  rw [List.map_cons, List.nodup_cons] at hn
  exact hn.1 (heq ▸ h1 ▸ List.mem_map_of_mem hx)

/-- No resting order is traded with more than once (by a seller twice) in a run of matching steps. -/
theorem Steps.fillsOf_le (hm : 0 < minBase) {n opp b q es opp' b' q'} (h : Steps p minBase n opp b q es opp' b' q')
    (hn : (opp.map Order.id).Nodup) (id : Nat) : (fillsOf id es).length ≤ p.side.spare := by
  induction h with
  | refl => simp
  | selfOut _ _ _ _ ih => rw [fillsOf_out]; exact ih (List.nodup_cons.1 hn).2
  | @fillOut n o rest b q es opp' b' q' _ _ _ h ih =>
    have ih := ih (List.nodup_cons.1 hn).2
    rw [fillsOf_fill]
    split
    · rename_i e
      subst e
      rw [fillsOf_out, fills_gone h hn]
      cases p.side <;> exact Nat.le_of_ble_eq_true rfl
    · rw [fillsOf_out]; exact ih
  | @fillKeep n o rest b q es opp' b' q' ht hs hk h ih =>
    rw [fillsOf_fill]
    split
    swap
    · exact ih hn
    rename_i e
    subst e
    rw [List.length_cons]
    rcases keep_cases hm hk with hb | hq
    · rw [hb] at h
      rw [h.stop untouched_base]
      cases p.side <;> exact Nat.le_of_ble_eq_true rfl
    obtain ⟨hp, hlt⟩ := spent ht.qty hq
    cases hside : p.side with
    | bid =>
      rw [hside] at h
      rw [h.stop (untouched_quote (left_bid rfl hp hlt))]
      exact Nat.le_of_ble_eq_true rfl
    | ask =>
      rw [hside] at h
      have hq' := left_ask rfl hp hlt
      revert h hq'
      generalize tradeQty o b q = t at hk
      generalize q - worth .ask t o.price = k
      intro h hq'
      have hfe := h.fills_le_quote
      have hfo := length_fillsOf_le o.id es
      show _ ≤ 2
      by_cases hone : k ≤ 1
      · omega
      have hop : 2 ^ 32 < o.price := by omega
      cases h with
      | refl => exact Nat.le_of_ble_eq_true rfl
      | selfOut ht2 hs2 _ _ => exact absurd hs2 hs
      | fillOut ht2 hs2 hm2 h2 =>
        rw [fillsOf_fill, if_pos rfl, fillsOf_out, fills_gone (o := o) h2 hn]
        exact Nat.le_of_ble_eq_true rfl
      | fillKeep ht2 hs2 hm2 h2 =>
        have r1 := left_ask2 rfl (Nat.le_mul_of_pos_left _ (Nat.pos_of_ne_zero ht2.qty)) hq'
        rw [hside] at h2
        have f := h2.stop (untouched_quote (Nat.lt_of_le_of_lt (Nat.mul_le_mul_right _ r1) (by
          rw [Nat.one_mul]; exact hop)))
        rw [f, fillsOf_fill, if_pos rfl]
        exact Nat.le_of_ble_eq_true rfl

end AOB
