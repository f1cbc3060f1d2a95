import Verif.Proofs.Bits
import Mathlib.Data.List.Perm.Basic
import Mathlib.Data.List.Nodup
import Mathlib.Data.List.Range
/-
Ghost crit-bit trees, zippers, and the relation between a tree and the slab memory.
-/
namespace AOB

/-- A leaf of the slab as seen from outside: its slot, key, quantity and callback info. -/
structure Entry (C : Type) where
  slot : Nat
  key : Nat
  qty : Nat
  cb : C
  deriving DecidableEq, Repr

/-- Ghost tree: what the slot arrays encode. -/
inductive Tree (C : Type) where
  | leaf (e : Entry C)
  | node (slot key plen : Nat) (l r : Tree C)

namespace Tree
variable {C : Type}

def ents : Tree C → List (Entry C)
  | leaf e => [e]
  | node _ _ _ l r => l.ents ++ r.ents

def inners : Tree C → List Nat
  | leaf _ => []
  | node i _ _ l r => i :: (l.inners ++ r.inners)

def handle : Tree C → Nat
  | leaf e => e.slot
  | node i _ _ _ _ => notU32 i

/-- Depth in inner nodes. -/
def depth : Tree C → Nat
  | leaf _ => 0
  | node _ _ _ l r => max l.depth r.depth + 1

def leafSlots (t : Tree C) : List Nat := t.ents.map Entry.slot

theorem ents_ne_nil (t : Tree C) : t.ents ≠ [] := by
  induction t with
  | leaf e => simp [ents]
  | node i k p l r ihl ihr => simp [ents, ihl]

theorem ents_length (t : Tree C) : t.ents.length = t.inners.length + 1 := by
  induction t with
  | leaf e => simp [ents, inners]
  | node i k p l r ihl ihr => simp [ents, inners, ihl, ihr]; omega

theorem depth_le_inners (t : Tree C) : t.depth ≤ t.inners.length := by
  induction t with
  | leaf e => simp [depth, inners]
  | node i k p l r ihl ihr => simp [depth, inners]; omega

/-- Crit-bit invariant. -/
def Wf : Tree C → Prop
  | leaf e => e.key < 2 ^ 128
  | node _ k p l r =>
      p < 128 ∧ k < 2 ^ 128 ∧
      (∀ e ∈ l.ents, Agree p e.key k ∧ e.key.testBit (127 - p) = false) ∧
      (∀ e ∈ r.ents, Agree p e.key k ∧ e.key.testBit (127 - p) = true) ∧
      l.Wf ∧ r.Wf

theorem Wf.key_lt {t : Tree C} (h : t.Wf) : ∀ e ∈ t.ents, e.key < 2 ^ 128 := by
  induction t with
  | leaf e => intro e' he'; simp [ents] at he'; subst he'; exact h
  | node i k p l r ihl ihr =>
    obtain ⟨_, _, _, _, hl, hr⟩ := h
    intro e he
    simp [ents] at he
    rcases he with he | he
    · exact ihl hl e he
    · exact ihr hr e he

/-- The keys of a tree increase from left to right. -/
theorem Wf.sorted {t : Tree C} (h : t.Wf) : t.ents.Pairwise (fun a b => a.key < b.key) := by
  induction t with
  | leaf e => simp [ents]
  | node i k p l r ihl ihr =>
    obtain ⟨hp, _, hl', hr', hl, hr⟩ := h
    simp only [ents]
    rw [List.pairwise_append]
    refine ⟨ihl hl, ihr hr, ?_⟩
    intro a ha b hb
    obtain ⟨ha1, ha2⟩ := hl' a ha
    obtain ⟨hb1, hb2⟩ := hr' b hb
    exact lt_of_critbit hp (ha1.trans hb1.symm) ha2 hb2

/-- Memory relation: the arrays hold this tree. -/
def Mem (ls : List LeafNode) (is : List InnerNode) (cs : List C) : Tree C → Prop
  | leaf e => e.slot < 2 ^ 31 ∧ ls[e.slot]? = some ⟨e.key, e.qty⟩ ∧ cs[e.slot]? = some e.cb
  | node i k p l r => i < 2 ^ 31 ∧ is[i]? = some ⟨k, p, l.handle, r.handle⟩ ∧
      l.Mem ls is cs ∧ r.Mem ls is cs

theorem Mem.ents_mem {ls is} {cs : List C} {t : Tree C} (h : t.Mem ls is cs) :
    ∀ e ∈ t.ents, e.slot < 2 ^ 31 ∧ ls[e.slot]? = some ⟨e.key, e.qty⟩ ∧ cs[e.slot]? = some e.cb := by
  induction t with
  | leaf e => intro e' he'; simp [ents] at he'; subst he'; exact h
  | node i k p l r ihl ihr =>
    obtain ⟨_, _, hl, hr⟩ := h
    intro e he
    simp [ents] at he
    rcases he with he | he
    · exact ihl hl e he
    · exact ihr hr e he

theorem Mem.inners_mem {ls is} {cs : List C} {t : Tree C} (h : t.Mem ls is cs) :
    ∀ i ∈ t.inners, i < 2 ^ 31 ∧ i < is.length := by
  induction t with
  | leaf e => intro e' he'; simp [inners] at he'
  | node i k p l r ihl ihr =>
    obtain ⟨h1, h2, hl, hr⟩ := h
    intro e he
    simp [inners] at he
    rcases he with he | he | he
    · subst he; exact ⟨h1, (List.getElem?_eq_some_iff.1 h2).1⟩
    · exact ihl hl e he
    · exact ihr hr e he

/-- Memory outside the slots of the tree is irrelevant. -/
theorem Mem.congr {ls ls' is is'} {cs cs' : List C} {t : Tree C} (h : t.Mem ls is cs)
    (hl : ∀ i ∈ t.leafSlots, ls'[i]? = ls[i]?) (hi : ∀ i ∈ t.inners, is'[i]? = is[i]?)
    (hc : ∀ i ∈ t.leafSlots, cs'[i]? = cs[i]?) : t.Mem ls' is' cs' := by
  induction t with
  | leaf e =>
    obtain ⟨h0, h1, h2⟩ := h
    refine ⟨h0, ?_, ?_⟩
    · rw [hl e.slot (by simp [leafSlots, ents]), h1]
    · rw [hc e.slot (by simp [leafSlots, ents]), h2]
  | node i k p l r ihl ihr =>
    obtain ⟨h0, h1, h2, h3⟩ := h
    refine ⟨h0, ?_, ?_, ?_⟩
    · rw [hi i (by simp [inners]), h1]
    · apply ihl h2
      · intro j hj; apply hl; simp [leafSlots, ents] at hj ⊢
        exact Or.inl hj
      · intro j hj; apply hi; simp [inners, hj]
      · intro j hj; apply hc; simp [leafSlots, ents] at hj ⊢
        exact Or.inl hj
    · apply ihr h3
      · intro j hj; apply hl; simp [leafSlots, ents] at hj ⊢
        exact Or.inr hj
      · intro j hj; apply hi; simp [inners, hj]
      · intro j hj; apply hc; simp [leafSlots, ents] at hj ⊢
        exact Or.inr hj

theorem Mem.handle_leaf {ls is} {cs : List C} {e : Entry C} (h : (leaf e).Mem ls is cs) :
    isInnerHandle (leaf e).handle = false := isInner_leaf h.1

theorem Mem.handle_node {ls is} {cs : List C} {i k p} {l r : Tree C}
    (h : (node i k p l r).Mem ls is cs) :
    isInnerHandle (node i k p l r).handle = true := isInner_not h.1

end Tree

/-! ### Zippers -/

/-- One inner node on the path to the hole: its slot, key and prefix length, the direction taken and
the subtree not taken. -/
structure Frame (C : Type) where
  slot : Nat
  key : Nat
  plen : Nat
  dir : Bool
  sib : Tree C

namespace Frame
variable {C : Type}

def fill (f : Frame C) (t : Tree C) : Tree C :=
  if f.dir then .node f.slot f.key f.plen f.sib t else .node f.slot f.key f.plen t f.sib

/-- The inner node of the frame when the hole has handle `h`. -/
def inode (f : Frame C) (h : Nat) : InnerNode :=
  if f.dir then ⟨f.key, f.plen, f.sib.handle, h⟩ else ⟨f.key, f.plen, h, f.sib.handle⟩

theorem inode_setChild (f : Frame C) (h h' : Nat) :
    (f.inode h).setChild f.dir h' = f.inode h' := by
  unfold inode InnerNode.setChild
  cases f.dir <;> simp

theorem inode_child (f : Frame C) (h : Nat) : (f.inode h).child f.dir = h := by
  unfold inode InnerNode.child
  cases f.dir <;> simp

theorem inode_child_not (f : Frame C) (h : Nat) : (f.inode h).child (!f.dir) = f.sib.handle := by
  unfold inode InnerNode.child
  cases f.dir <;> simp

theorem fill_handle (f : Frame C) (t : Tree C) : (f.fill t).handle = notU32 f.slot := by
  unfold fill; cases f.dir <;> simp [Tree.handle]

end Frame

/-- Path from the hole (head) up to the root. -/
abbrev Ctx (C : Type) := List (Frame C)

namespace Ctx
variable {C : Type}

def plug : Ctx C → Tree C → Tree C
  | [], t => t
  | f :: c, t => plug c (f.fill t)

/-- Entries left of the hole. -/
def lefts : Ctx C → List (Entry C)
  | [] => []
  | f :: c => lefts c ++ (if f.dir then f.sib.ents else [])

/-- Entries right of the hole. -/
def rights : Ctx C → List (Entry C)
  | [] => []
  | f :: c => (if f.dir then [] else f.sib.ents) ++ rights c

/-- Inner slots of the context. -/
def inners : Ctx C → List Nat
  | [] => []
  | f :: c => f.slot :: (f.sib.inners ++ inners c)

/-- Handle stored in the parent (or header) for the subtree at the hole. -/
def top (c : Ctx C) (h : Nat) : Nat :=
  match c.getLast? with
  | none => h
  | some f => notU32 f.slot

theorem plug_handle (c : Ctx C) (t : Tree C) : (plug c t).handle = top c t.handle := by
  induction c generalizing t with
  | nil => simp [plug, top]
  | cons f c ih =>
    simp only [plug]
    rw [ih, Frame.fill_handle]
    unfold top
    cases c with
    | nil => simp
    | cons g c =>
      rw [List.getLast?_cons_cons, List.getLast?_eq_some_getLast (by simp : g :: c ≠ [])]

theorem plug_ents (c : Ctx C) (t : Tree C) : (plug c t).ents = lefts c ++ t.ents ++ rights c := by
  induction c generalizing t with
  | nil => simp [plug, lefts, rights]
  | cons f c ih =>
    simp only [plug]
    rw [ih]
    unfold Frame.fill
    cases hf : f.dir <;> simp [lefts, rights, hf, Tree.ents]

theorem plug_inners (c : Ctx C) (t : Tree C) : ((plug c t).inners).Perm (t.inners ++ inners c) := by
  induction c generalizing t with
  | nil => simp [plug, inners]
  | cons f c ih =>
    simp only [plug]
    refine (ih _).trans ?_
    unfold Frame.fill
    cases hf : f.dir
    · simp only [Bool.false_eq_true, if_false, Tree.inners, inners]
      have : (t.inners ++ f.slot :: (f.sib.inners ++ inners c)).Perm
          (f.slot :: (t.inners ++ (f.sib.inners ++ inners c))) := List.perm_middle
      refine List.Perm.trans ?_ this.symm
      simp [List.append_assoc]
    · simp only [if_true, Tree.inners, inners]
      have : (t.inners ++ f.slot :: (f.sib.inners ++ inners c)).Perm
          (f.slot :: (t.inners ++ (f.sib.inners ++ inners c))) := List.perm_middle
      refine List.Perm.trans ?_ this.symm
      simp only [List.cons_append]
      refine List.Perm.cons _ ?_
      rw [← List.append_assoc]
      exact List.Perm.append_right _ List.perm_append_comm

/-- Memory relation of a context whose hole has handle `h`. -/
def Mem (ls : List LeafNode) (is : List InnerNode) (cs : List C) : Ctx C → Nat → Prop
  | [], _ => True
  | f :: c, h => f.slot < 2 ^ 31 ∧ is[f.slot]? = some (f.inode h) ∧ f.sib.Mem ls is cs ∧
      Mem ls is cs c (notU32 f.slot)

theorem mem_plug {ls is} {cs : List C} (c : Ctx C) (t : Tree C) :
    (plug c t).Mem ls is cs ↔ Mem ls is cs c t.handle ∧ t.Mem ls is cs := by
  induction c generalizing t with
  | nil => simp [plug, Mem]
  | cons f c ih =>
    simp only [plug, Mem]
    rw [ih, Frame.fill_handle]
    unfold Frame.fill Frame.inode
    cases hf : f.dir <;> simp [Tree.Mem] <;> tauto

theorem Mem.congr {ls ls' is is'} {cs cs' : List C} {c : Ctx C} {h : Nat} (hm : Mem ls is cs c h)
    (hl : ∀ e ∈ lefts c ++ rights c, ls'[e.slot]? = ls[e.slot]?)
    (hi : ∀ i ∈ inners c, is'[i]? = is[i]?)
    (hc : ∀ e ∈ lefts c ++ rights c, cs'[e.slot]? = cs[e.slot]?) : Mem ls' is' cs' c h := by
  induction c generalizing h with
  | nil => simp [Mem]
  | cons f c ih =>
    obtain ⟨h0, h1, h2, h3⟩ := hm
    have sibsub : ∀ e ∈ f.sib.ents, e ∈ lefts (f :: c) ++ rights (f :: c) := by
      intro e he; cases hf : f.dir <;> simp [lefts, rights, hf, he]
    have csub : ∀ e ∈ lefts c ++ rights c, e ∈ lefts (f :: c) ++ rights (f :: c) := by
      intro e he
      simp at he
      rcases he with he | he <;> simp [lefts, rights, he]
    refine ⟨h0, ?_, ?_, ?_⟩
    · rw [hi f.slot (by simp [inners]), h1]
    · apply h2.congr
      · intro j hj
        simp only [Tree.leafSlots, List.mem_map] at hj
        obtain ⟨e, he, rfl⟩ := hj
        exact hl e (sibsub e he)
      · intro j hj; apply hi; simp [inners, hj]
      · intro j hj
        simp only [Tree.leafSlots, List.mem_map] at hj
        obtain ⟨e, he, rfl⟩ := hj
        exact hc e (sibsub e he)
    · apply ih h3
      · intro e he; exact hl e (csub e he)
      · intro j hj; apply hi; simp [inners, hj]
      · intro e he; exact hc e (csub e he)

/-- A key belongs in the hole of the context. -/
def Fits (c : Ctx C) (k : Nat) : Prop :=
  ∀ f ∈ c, Agree f.plen k f.key ∧ k.testBit (127 - f.plen) = f.dir

/-- Crit-bit invariant of a context. -/
def Wf : Ctx C → Prop
  | [] => True
  | f :: c => f.plen < 128 ∧ f.key < 2 ^ 128 ∧ f.sib.Wf ∧
      (∀ e ∈ f.sib.ents, Agree f.plen e.key f.key ∧ e.key.testBit (127 - f.plen) = !f.dir) ∧
      (∀ e ∈ f.sib.ents, Fits c e.key) ∧ Wf c

theorem wf_plug (c : Ctx C) (t : Tree C) :
    (plug c t).Wf ↔ Wf c ∧ t.Wf ∧ ∀ e ∈ t.ents, Fits c e.key := by
  induction c generalizing t with
  | nil => simp [plug, Wf, Fits]
  | cons f c ih =>
    simp only [plug]
    rw [ih]
    unfold Frame.fill
    cases hf : f.dir
    · simp only [Bool.false_eq_true, if_false, Tree.Wf, Tree.ents, List.mem_append, Wf, Fits,
        List.mem_cons, forall_eq_or_imp, hf, Bool.not_false]
      constructor
      · rintro ⟨h1, ⟨h2, h3, h4, h5, h6, h7⟩, h8⟩
        refine ⟨⟨h2, h3, h7, h5, fun e he => h8 e (Or.inr he), h1⟩, h6, fun e he => ⟨h4 e he, h8 e (Or.inl he)⟩⟩
      · rintro ⟨⟨h2, h3, h7, h5, h9, h1⟩, h6, h10⟩
        refine ⟨h1, ⟨h2, h3, fun e he => (h10 e he).1, h5, h6, h7⟩, ?_⟩
        rintro e (he | he)
        · exact (h10 e he).2
        · exact h9 e he
    · simp only [if_true, Tree.Wf, Tree.ents, List.mem_append, Wf, Fits,
        List.mem_cons, forall_eq_or_imp, hf, Bool.not_true]
      constructor
      · rintro ⟨h1, ⟨h2, h3, h4, h5, h6, h7⟩, h8⟩
        refine ⟨⟨h2, h3, h6, h4, fun e he => h8 e (Or.inl he), h1⟩, h7, fun e he => ⟨h5 e he, h8 e (Or.inr he)⟩⟩
      · rintro ⟨⟨h2, h3, h6, h4, h9, h1⟩, h7, h10⟩
        refine ⟨h1, ⟨h2, h3, h4, fun e he => (h10 e he).1, h6, h7⟩, ?_⟩
        rintro e (he | he)
        · exact h9 e he
        · exact (h10 e he).2

theorem lefts_lt {c : Ctx C} (hw : Wf c) {k : Nat} (hk : Fits c k) : ∀ e ∈ lefts c, e.key < k := by
  induction c with
  | nil => simp [lefts]
  | cons f c ih =>
    obtain ⟨h1, h2, h3, h4, h5, h6⟩ := hw
    have hf := hk f (by simp)
    intro e he
    simp only [lefts, List.mem_append] at he
    rcases he with he | he
    · exact ih h6 (fun g hg => hk g (by simp [hg])) e he
    · cases hd : f.dir
      · simp [hd] at he
      · simp only [hd, if_true] at he
        obtain ⟨ha, hb⟩ := h4 e he
        rw [hd] at hf hb
        exact lt_of_critbit h1 (ha.trans hf.1.symm) hb hf.2

theorem lt_rights {c : Ctx C} (hw : Wf c) {k : Nat} (hk : Fits c k) : ∀ e ∈ rights c, k < e.key := by
  induction c with
  | nil => simp [rights]
  | cons f c ih =>
    obtain ⟨h1, h2, h3, h4, h5, h6⟩ := hw
    have hf := hk f (by simp)
    intro e he
    simp only [rights, List.mem_append] at he
    rcases he with he | he
    · cases hd : f.dir
      · simp only [hd, Bool.false_eq_true, if_false] at he
        obtain ⟨ha, hb⟩ := h4 e he
        rw [hd] at hf hb
        exact lt_of_critbit h1 (hf.1.trans ha.symm) hf.2 hb
      · simp [hd] at he
    · exact ih h6 (fun g hg => hk g (by simp [hg])) e he

end Ctx
end AOB
