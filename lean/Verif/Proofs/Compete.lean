import Verif.Spec.Compete
import Verif.Proofs.Best
/-
Taking from a deeper book is not dearer.
-/
namespace AOB
variable {C : Type}

/-- What `f` takes at prices not worse than `x`. -/
def within (side : Side) (l : List (Order C)) (f : Order C → Nat) (x : Nat) : Nat :=
  amount (l.filter (fun o => side.accepts x o.price)) f

theorem within_cons (side : Side) (o : Order C) (l : List (Order C)) (f : Order C → Nat) (x : Nat) :
    within side (o :: l) f x = (if side.accepts x o.price then f o else 0) + within side l f x := by
  unfold within
  rw [List.filter_cons]
  split <;> simp

theorem within_congr {side : Side} {l : List (Order C)} {f g : Order C → Nat} (h : ∀ o ∈ l, f o = g o) (x : Nat) :
    within side l f x = within side l g x := amount_congr (fun o ho => h o (List.mem_of_mem_filter ho))

theorem within_le (side : Side) (l : List (Order C)) (f : Order C → Nat) (x : Nat) : within side l f x ≤ amount l f := by
  induction l with
  | nil => simp [within]
  | cons o l ih =>
    rw [within_cons, amount_cons]
    split <;> omega

theorem within_mono {side : Side} {l : List (Order C)} {f g : Order C → Nat} (h : ∀ o ∈ l, f o ≤ g o) (x : Nat) :
    within side l f x ≤ within side l g x := by
  induction l with
  | nil => simp [within]
  | cons o l ih =>
    have h1 := h o (by simp)
    have h2 := ih (fun y hy => h y (by simp [hy]))
    rw [within_cons, within_cons]
    split <;> omega

/-- Taking the best `t` units. -/
theorem take_best {side : Side} : ∀ {l : List (Order C)}, Ordered side l → (l.map Order.id).Nodup → ∀ {t : Nat},
    t ≤ amount l Order.qty → ∃ f : Order C → Nat, (∀ o ∈ l, f o ≤ o.qty) ∧ amount l f = t ∧
      ∀ x, within side l f x = min t (within side l Order.qty x) := by
  intro l
  induction l with
  | nil =>
    intro _ _ t ht
    have : t = 0 := by simpa using ht
    exact ⟨fun _ => 0, by simp, by simp [this], by simp [within, this]⟩
  | cons o l ih =>
    intro ho hn t ht
    unfold Ordered at ho
    rw [List.pairwise_cons] at ho
    rw [List.map_cons, List.nodup_cons] at hn
    rw [amount_cons] at ht
    obtain ⟨f, h1, h2, h3⟩ := ih ho.2 hn.2 (t := t - min o.qty t) (by omega)
    have hne : ∀ y ∈ l, y.id ≠ o.id := fun y hy e => hn.1 (e ▸ List.mem_map_of_mem hy)
    have hg : ∀ y ∈ l, (fun y : Order C => if y.id = o.id then min o.qty t else f y) y = f y := fun y hy => if_neg (hne y hy)
    refine ⟨fun y => if y.id = o.id then min o.qty t else f y, ?_, ?_, ?_⟩
    · intro y hy
      rcases List.mem_cons.1 hy with rfl | hy
      · simp
      · show (fun y : Order C => if y.id = o.id then min o.qty t else f y) y ≤ y.qty
        rw [hg y hy]; exact h1 y hy
    · rw [amount_cons, amount_congr hg, h2, if_pos rfl]; omega
    · intro x
      rw [within_cons, within_cons, within_congr hg, h3, if_pos rfl]
      by_cases ha : side.accepts x o.price = true
      · rw [if_pos ha, if_pos ha]; omega
      · rw [if_neg ha, if_neg ha]
        have : within side l Order.qty x = 0 := by
          unfold within
          rw [List.filter_eq_nil_iff.2]
          · rfl
          · intro y hy hacc
            have := ho.1 y hy
            unfold Side.accepts at ha hacc
            cases side <;> simp only [decide_eq_true_eq] at * <;> omega
        rw [this]; omega

theorem sum_add (l : List Nat) (f g : Nat → Nat) : (l.map (fun x => f x + g x)).sum = (l.map f).sum + (l.map g).sum := by
  induction l with
  | nil => rfl
  | cons x l ih => simp only [List.map_cons, List.sum_cons, ih]; omega

theorem sum_sublist {l l' : List Nat} (h : l.Sublist l') : l.sum ≤ l'.sum := by
  induction h with
  | slnil => exact Nat.le_refl _
  | cons a _ ih => rw [List.sum_cons]; omega
  | cons_cons a _ ih => rw [List.sum_cons, List.sum_cons]; omega

/-- The value by price levels, for a buyer: one for every unit and every step below its price. -/
theorem bill_layers_bid (l : List (Order C)) (f : Order C → Nat) (X : Nat) (h : ∀ o ∈ l, o.price ≤ X) :
    bill l f = ((List.range X).map (fun x => amount l f - within .bid l f x)).sum := by
  induction l with
  | nil =>
    simp [within]
  | cons o l ih =>
    rw [bill_cons, ih (fun y hy => h y (by simp [hy]))]
    have e : (fun x => amount (o :: l) f - within .bid (o :: l) f x) =
        (fun x => (if x < o.price then f o else 0) + (amount l f - within .bid l f x)) := by
      funext x
      have := within_le .bid l f x
      rw [amount_cons, within_cons]
      simp only [Side.accepts, decide_eq_true_eq]
      split <;> split <;> omega
    rw [e, sum_add]
    congr 1
    have hX := h o (by simp)
    generalize o.price = k at hX
    generalize f o = c
    clear * - hX
    induction X with
    | zero => simp [Nat.le_zero.1 hX]
    | succ X ih =>
      rw [List.range_succ, List.map_append, List.sum_append]
      rcases Nat.lt_or_ge X k with hk | hk
      · have : k = X + 1 := by omega
        subst this
        have e : (List.range X).map (fun x => if x < X + 1 then c else 0) = (List.range X).map (fun _ => c) := by
          apply List.map_congr_left
          intro x hx
          rw [if_pos (by have := List.mem_range.1 hx; omega)]
        rw [e]
        simp [Nat.mul_comm, Nat.mul_add, Nat.add_mul]
      · rw [← ih hk]
        simp [Nat.not_lt.2 hk]

/-- The same for a seller. -/
theorem bill_layers_ask (l : List (Order C)) (f : Order C → Nat) (X : Nat) (h : ∀ o ∈ l, o.price ≤ X) :
    bill l f = ((List.range X).map (fun x => within .ask l f (x + 1))).sum := by
  have e : (fun x => within .ask l f (x + 1)) = (fun x => amount l f - within .bid l f x) := by
    funext x
    induction l with
    | nil => simp [within]
    | cons o l ih =>
      have := within_le .bid l f x
      have ih := ih (fun y hy => h y (by simp [hy]))
      rw [within_cons, within_cons, amount_cons, ih]
      simp only [Side.accepts, decide_eq_true_eq]
      split <;> split <;> omega
  rw [e]
  exact bill_layers_bid l f X h

theorem sum_mono {X : Nat} {g g' : Nat → Nat} (h : ∀ x, g x ≤ g' x) :
    ((List.range X).map g).sum ≤ ((List.range X).map g').sum := by
  induction X with
  | zero => simp
  | succ X ih =>
    rw [List.range_succ, List.map_append, List.map_append, List.sum_append, List.sum_append]
    have := h X
    simp; omega

/-- Whoever takes `t` units of `l₁` in some way can take as many (or fewer) of the deeper `l₂` in a way that is not dearer. -/
theorem cheaper {l₁ l₂ : List (Order C)} (h₂ : Ordered .bid l₂) (hn : (l₂.map Order.id).Nodup)
    (hd : ∀ x, within .bid l₁ Order.qty x ≤ within .bid l₂ Order.qty x) {f₁ : Order C → Nat} (hf : ∀ o ∈ l₁, f₁ o ≤ o.qty)
    {t : Nat} (ht : t ≤ amount l₁ f₁) (ht2 : t ≤ amount l₂ Order.qty) :
    ∃ f : Order C → Nat, (∀ o ∈ l₂, f o ≤ o.qty) ∧ amount l₂ f = t ∧
      (∀ x, within .bid l₂ f x = min t (within .bid l₂ Order.qty x)) ∧ bill l₂ f ≤ bill l₁ f₁ := by
  obtain ⟨f, a, b, c⟩ := take_best h₂ hn ht2
  refine ⟨f, a, b, c, ?_⟩
  rw [bill_layers_bid l₂ f (amount l₁ Order.price + amount l₂ Order.price)
      (fun o ho => Nat.le_trans (le_amount Order.price ho) (by omega)),
    bill_layers_bid l₁ f₁ (amount l₁ Order.price + amount l₂ Order.price)
      (fun o ho => Nat.le_trans (le_amount Order.price ho) (by omega))]
  refine sum_mono (fun x => ?_)
  have h1 := within_mono (side := .bid) hf x
  have h2 := within_le .bid l₁ f₁ x
  have h3 := hd x
  rw [b, c]
  omega

/-- For a seller: not less. -/
theorem dearer {l₁ l₂ : List (Order C)} (h₂ : Ordered .ask l₂) (hn : (l₂.map Order.id).Nodup)
    (hd : ∀ x, within .ask l₁ Order.qty x ≤ within .ask l₂ Order.qty x) {f₁ : Order C → Nat} (hf : ∀ o ∈ l₁, f₁ o ≤ o.qty)
    {t : Nat} (ht : amount l₁ f₁ ≤ t) (ht2 : t ≤ amount l₂ Order.qty) :
    ∃ f : Order C → Nat, (∀ o ∈ l₂, f o ≤ o.qty) ∧ amount l₂ f = t ∧
      (∀ x, within .ask l₂ f x = min t (within .ask l₂ Order.qty x)) ∧ bill l₁ f₁ ≤ bill l₂ f := by
  obtain ⟨f, a, b, c⟩ := take_best h₂ hn ht2
  refine ⟨f, a, b, c, ?_⟩
  rw [bill_layers_ask l₂ f (amount l₁ Order.price + amount l₂ Order.price)
      (fun o ho => Nat.le_trans (le_amount Order.price ho) (by omega)),
    bill_layers_ask l₁ f₁ (amount l₁ Order.price + amount l₂ Order.price)
      (fun o ho => Nat.le_trans (le_amount Order.price ho) (by omega))]
  refine sum_mono (fun x => ?_)
  have h1 := within_mono (side := .ask) hf (x + 1)
  have h2 := within_le .ask l₁ f₁ (x + 1)
  have h3 := hd (x + 1)
  rw [c]
  omega

/-- What is taken is taken at prices that count. -/
theorem zero_outside {side : Side} {l : List (Order C)} {f : Order C → Nat} {x : Nat} (h : within side l f x = amount l f)
    {o : Order C} (ho : o ∈ l) (hx : ¬ side.accepts x o.price = true) : f o = 0 := by
  induction l with
  | nil => cases ho
  | cons y l ih =>
    have := within_le side l f x
    rw [within_cons, amount_cons] at h
    rcases List.mem_cons.1 ho with rfl | ho
    · rw [if_neg hx] at h; omega
    · refine ih ?_ ho
      split at h <;> omega

end AOB
