import Verif.RBTree.Spec

set_option linter.all false

namespace Fly.RB
open Tree

variable {K D : Type}

/-! ## In-order lists -/

def lefts : Path K D → List (Entry K D)
  | [] => []
  | f :: rest => lefts rest ++ (match f.dir with | .left => [] | .right => f.sib.toList ++ [f.entry])

def rights : Path K D → List (Entry K D)
  | [] => []
  | f :: rest => (match f.dir with | .left => f.entry :: f.sib.toList | .right => []) ++ rights rest

theorem toList_zip (p : Path K D) (t : Tree K D) :
    (zip p t).toList = lefts p ++ t.toList ++ rights p := by
  induction p generalizing t with
  | nil => simp [zip, lefts, rights]
  | cons f rest ih =>
    simp only [zip, ih, lefts, rights, Frame.plug]
    cases f.dir <;> simp [toList]

theorem lefts_append (p q : Path K D) : lefts (p ++ q) = lefts q ++ lefts p := by
  induction p with
  | nil => simp [lefts]
  | cons f p ih => simp [lefts, ih]

theorem rights_append (p q : Path K D) : rights (p ++ q) = rights p ++ rights q := by
  induction p with
  | nil => simp [rights]
  | cons f p ih => simp [rights, ih]

theorem zip_append (p q : Path K D) (t : Tree K D) : zip (p ++ q) t = zip q (zip p t) := by
  induction p generalizing t with
  | nil => simp [zip]
  | cons f p ih => simp [zip, ih]

@[simp] theorem toList_setColor (c : Color) (t : Tree K D) : (t.setColor c).toList = t.toList := by
  cases t <;> rfl

theorem toList_rotL {t t' : Tree K D} (h : rotL t = some t') : t'.toList = t.toList := by
  unfold rotL at h; split at h
  · cases h; simp [toList]
  · cases h

theorem toList_rotR {t t' : Tree K D} (h : rotR t = some t') : t'.toList = t.toList := by
  unfold rotR at h; split at h
  · cases h; simp [toList]
  · cases h

theorem toList_plug (f : Frame K D) (t : Tree K D) :
    (f.plug t).toList = lefts [f] ++ t.toList ++ rights [f] := by
  simp only [Frame.plug, lefts, rights]; cases f.dir <;> simp [toList]

theorem toList_insStraighten (d : Dir) (p : Frame K D) (n t : Tree K D)
    (h : insStraighten d p n = some t) : t.toList = (p.plug n).toList := by
  unfold insStraighten at h
  split at h
  · exact toList_rotL h
  · exact toList_rotR h
  · cases h; rfl

theorem toList_insRotate (d : Dir) (n t : Tree K D)
    (h : insRotate d n = some t) : t.toList = n.toList := by
  unfold insRotate at h
  split at h
  · exact toList_rotR h
  · exact toList_rotL h

theorem toList_insFix (n : Tree K D) (p : Path K D) (t : Tree K D) (h : insFix n p = some t) :
    t.toList = lefts p ++ n.toList ++ rights p := by
  fun_induction insFix n p with
  | case1 n => cases h; simp [lefts, rights]
  | case2 => simp at h; rw [← h, toList_zip]
  | case3 => simp at h
  | case4 => simp at h; rw [← h, toList_zip]
  | case5 n p g rest hc hu =>
    simp only [Option.bind_eq_some_iff, Option.map_eq_some_iff] at h
    obtain ⟨pn, h1, sub, h2, h3⟩ := h
    rw [← h3, toList_zip, toList_insRotate _ _ _ h2, toList_plug]
    simp only [toList_setColor, toList_insStraighten _ _ _ _ h1, toList_plug]
    simp [lefts, rights]
  | case6 n p g rest hc hu ih =>
    rw [ih h]
    simp [lefts, rights, toList_plug]

theorem toList_delInnerL {c : Color} {sl : Tree K D} {s : Entry K D} {sr t : Tree K D}
    (h : delInnerL c sl s sr = some t) : t.toList = (node c sl s sr).toList := by
  unfold delInnerL at h
  split at h
  · split at h
    · rename_i heq; cases h; rw [← toList_rotR heq]; simp [toList]
    · simp at h
  · cases h; rfl

theorem toList_delInnerR {c : Color} {sl : Tree K D} {s : Entry K D} {sr t : Tree K D}
    (h : delInnerR c sl s sr = some t) : t.toList = (node c sl s sr).toList := by
  unfold delInnerR at h
  split at h
  · split at h
    · rename_i heq; cases h; rw [← toList_rotL heq]; simp [toList]
    · simp at h
  · cases h; rfl

theorem toList_delOuterL {n : Tree K D} {p : Frame K D} {sib t : Tree K D}
    (h : delOuterL n p sib = some t) : t.toList = ({ p with sib := sib }.plug n).toList := by
  cases sib with
  | nil => simp [delOuterL] at h
  | node d a x b =>
    simp only [delOuterL] at h
    split at h
    · rename_i heq; cases h; rw [← toList_rotL heq]; simp [toList]
    · simp at h

theorem toList_delOuterR {n : Tree K D} {p : Frame K D} {sib t : Tree K D}
    (h : delOuterR n p sib = some t) : t.toList = ({ p with sib := sib }.plug n).toList := by
  cases sib with
  | nil => simp [delOuterR] at h
  | node d a x b =>
    simp only [delOuterR] at h
    split at h
    · rename_i heq; cases h; rw [← toList_rotR heq]; simp [toList]
    · simp at h

theorem toList_delTurn (n : Tree K D) (p : Frame K D) (b : Bool) (t : Tree K D)
    (h : delTurn n p = some (b, t)) : t.toList = (p.plug n).toList := by
  unfold delTurn at h
  split at h
  · split at h <;> simp at h <;> obtain ⟨_, rfl⟩ := h <;> simp [toList_plug, lefts, rights]
  · rename_i c sl s sr hs
    split at h
    · split at h <;> simp at h <;> obtain ⟨_, rfl⟩ := h <;>
        simp [toList_plug, lefts, rights, hs, toList]
    · split at h <;> simp only [Option.bind_eq_some_iff, Option.map_eq_some_iff] at h <;>
        obtain ⟨sib, h1, t1, h2, h3⟩ := h <;> simp at h3 <;> obtain ⟨_, rfl⟩ := h3
      · simp [toList_delOuterL h2, toList_plug, lefts, rights, toList_delInnerL h1, hs]
      · simp [toList_delOuterR h2, toList_plug, lefts, rights, toList_delInnerR h1, hs]

theorem toList_delLoop (n : Tree K D) (p : Path K D) (t : Tree K D) (h : delLoop n p = some t) :
    t.toList = lefts p ++ n.toList ++ rights p := by
  induction p generalizing n t with
  | nil => simp [delLoop] at h; simp [h, lefts, rights]
  | cons p rest ih =>
    rw [← toList_zip, zip]
    unfold delLoop at h
    split at h
    · rename_i sl s sr hs
      split at h <;> rename_i hd <;> split at h <;> try contradiction
      all_goals
        split at h <;> simp at h
        rename_i h1
        have := toList_delTurn _ _ _ _ h1
        rw [← h, toList_zip, toList_zip]
        simp [toList, this, Frame.plug, hd, hs]
    · split at h
      · rename_i h1
        have := toList_delTurn _ _ _ _ h1
        rw [ih _ _ h, toList_zip, this]
      · rename_i h1
        have := toList_delTurn _ _ _ _ h1
        simp at h; rw [← h, toList_zip, toList_zip, this]
      · simp at h

theorem toList_delFix (n : Tree K D) (p : Path K D) (t : Tree K D) (h : delFix n p = some t) :
    t.toList = lefts p ++ n.toList ++ rights p := by
  unfold delFix at h
  split at h
  · exact toList_delLoop _ _ _ h
  · simp at h; rw [← h, toList_zip]; simp

@[simp] theorem isBlack_nil : (nil : Tree K D).isBlack = true := rfl
@[simp] theorem isBlack_red (l : Tree K D) (e : Entry K D) (r : Tree K D) :
    (node .red l e r).isBlack = false := rfl
@[simp] theorem isBlack_black (l : Tree K D) (e : Entry K D) (r : Tree K D) :
    (node .black l e r).isBlack = true := rfl
@[simp] theorem setColor_node (c d : Color) (l : Tree K D) (e : Entry K D) (r : Tree K D) :
    (node d l e r).setColor c = node c l e r := rfl

/-! ## Red-black invariant -/

/-- `RBI t n`: no red node has a red child and every path to a leaf has `n` black nodes. -/
def RBI : Tree K D → Nat → Prop
  | nil, n => n = 0
  | node .red l _ r, n => RBI l n ∧ RBI r n ∧ l.isBlack ∧ r.isBlack
  | node .black l _ r, n => ∃ m, n = m + 1 ∧ RBI l m ∧ RBI r m

/-- Head of the parent chain is black (a red node's parent). -/
def headBlack : Path K D → Prop
  | [] => False
  | f :: _ => f.color = .black

/-- `PRB p n`: the surroundings of a hole expecting a subtree of black height `n`. -/
def PRB : Path K D → Nat → Prop
  | [], _ => True
  | f :: rest, n =>
    RBI f.sib n ∧
    match f.color with
    | .red => f.sib.isBlack ∧ headBlack rest ∧ PRB rest n
    | .black => PRB rest (n + 1)

/-- The hole may be filled with a red node. -/
def redOk : Path K D → Prop := headBlack

theorem RBI_setBlack {t : Tree K D} {n : Nat} (h : RBI t n) (hr : t.isBlack = false) :
    RBI (t.setColor .black) (n + 1) := by
  cases t with
  | nil => simp [isBlack] at hr
  | node c l e r =>
    cases c
    · simp [RBI, setColor] at h ⊢; exact ⟨h.1, h.2.1⟩
    · simp [isBlack] at hr

theorem RBI_zip (p : Path K D) (t : Tree K D) (n : Nat) (hp : PRB p n) (ht : RBI t n)
    (hc : t.isBlack = true ∨ headBlack p) : ∃ m, RBI (zip p t) m ∧ (zip p t).isBlack = true := by
  induction p generalizing t n with
  | nil =>
    rcases hc with hc | hc
    · exact ⟨n, ht, hc⟩
    · exact hc.elim
  | cons f rest ih =>
    obtain ⟨dir, color, entry, sib⟩ := f
    simp only [zip]
    simp only [PRB] at hp
    cases color
    · simp only [headBlack, reduceCtorEq, or_false] at hc
      refine ih _ n hp.2.2.2 ?_ (Or.inr hp.2.2.1)
      cases dir <;> simp [Frame.plug, RBI, *]
    · refine ih _ (n+1) hp.2 ?_ (Or.inl ?_)
      · cases dir <;> simp [Frame.plug, RBI, *]
      · cases dir <;> simp [Frame.plug, isBlack]

theorem RBI_insFix (n : Tree K D) (p : Path K D) (h : Nat) (hn : RBI n h) (hr : n.isBlack = false)
    (hp : PRB p h) : ∃ t m, insFix n p = some t ∧ RBI t m ∧ t.isBlack = true := by
  fun_induction insFix n p generalizing h with
  | case1 n =>
    refine ⟨_, h+1, rfl, RBI_setBlack hn hr, ?_⟩
    cases n <;> simp [setColor, isBlack]
  | case2 n p hb =>
    obtain ⟨m, h1, h2⟩ := RBI_zip [p] n h hp hn (Or.inr hb)
    exact ⟨_, m, rfl, h1, h2⟩
  | case3 n p hb =>
    exfalso
    simp only [PRB] at hp
    cases hc : p.color <;> simp [hc] at hb hp
    exact hp.2.2
  | case4 n p g rest hb =>
    obtain ⟨m, h1, h2⟩ := RBI_zip (p :: g :: rest) n h hp hn (Or.inr hb)
    exact ⟨_, m, rfl, h1, h2⟩
  | case5 n p g rest hb hu =>
    obtain ⟨pd, pc, pe, ps⟩ := p
    obtain ⟨gd, gc, ge, gs⟩ := g
    cases pc <;> simp at hb
    simp only [PRB, headBlack] at hp
    obtain ⟨hps, hpsb, hgc, hgs, hrest⟩ := hp
    simp only at hgc hu hgs
    subst hgc
    simp only at hrest
    cases n with
    | nil => simp [isBlack] at hr
    | node nc nl ne nr =>
    cases nc <;> simp [isBlack] at hr
    simp only [RBI] at hn
    cases gd <;> cases pd <;>
      simp only [insStraighten, insRotate, Frame.plug, Option.bind_some, setColor, rotR, rotL,
        Option.map_some]
    · obtain ⟨m, h1, h2⟩ := RBI_zip rest (node .black (node .red nl ne nr) pe (node .red ps ge gs)) (h+1)
        hrest (by simp [RBI, *]) (Or.inl rfl)
      exact ⟨_, m, rfl, h1, h2⟩
    · obtain ⟨m, h1, h2⟩ := RBI_zip rest (node .black (node .red ps pe nl) ne (node .red nr ge gs)) (h+1)
        hrest (by simp [RBI, *]) (Or.inl rfl)
      exact ⟨_, m, rfl, h1, h2⟩
    · obtain ⟨m, h1, h2⟩ := RBI_zip rest (node .black (node .red gs ge nl) ne (node .red nr pe ps)) (h+1)
        hrest (by simp [RBI, *]) (Or.inl rfl)
      exact ⟨_, m, rfl, h1, h2⟩
    · obtain ⟨m, h1, h2⟩ := RBI_zip rest (node .black (node .red gs ge ps) pe (node .red nl ne nr)) (h+1)
        hrest (by simp [RBI, *]) (Or.inl rfl)
      exact ⟨_, m, rfl, h1, h2⟩
  | case6 n p g rest hb hu ih =>
    obtain ⟨pd, pc, pe, ps⟩ := p
    obtain ⟨gd, gc, ge, gs⟩ := g
    cases pc <;> simp at hb
    simp only [PRB, headBlack] at hp
    obtain ⟨hps, hpsb, hgc, hgs, hrest⟩ := hp
    simp only at hgc hu hgs
    subst hgc
    simp only at hrest
    refine ih (h+1) ?_ ?_ hrest
    · have := RBI_setBlack hgs (by simpa using hu)
      cases pd <;> cases gd <;> simp [Frame.plug, RBI, isBlack, hn, hps, this] <;>
        (cases gs <;> simp [setColor, isBlack])
    · cases gd <;> simp [Frame.plug, isBlack]

theorem RBI_black_cases {t : Tree K D} {h : Nat} (ht : RBI t (h+1)) (hb : t.isBlack = true) :
    ∃ l e r, t = node .black l e r ∧ RBI l h ∧ RBI r h := by
  cases t with
  | nil => simp [RBI] at ht
  | node c l e r =>
    cases c
    · simp [isBlack] at hb
    · simp [RBI] at ht; exact ⟨l, e, r, rfl, ht.1, ht.2⟩

theorem RBI_red_cases {t : Tree K D} {h : Nat} (ht : RBI t h) (hb : t.isBlack = false) :
    ∃ l e r, t = node .red l e r ∧ RBI l h ∧ RBI r h ∧ l.isBlack = true ∧ r.isBlack = true := by
  cases t with
  | nil => simp [isBlack] at hb
  | node c l e r =>
    cases c
    · simp [RBI] at ht; exact ⟨l, e, r, rfl, ht⟩
    · simp [isBlack] at hb

/-- Effect of one rebalancing turn: `n` is one black node short. -/
theorem RBI_delTurn (n : Tree K D) (p : Frame K D) (h : Nat) (hn : RBI n h) (hnb : n.isBlack = true)
    (hs : RBI p.sib (h+1)) (hsb : p.sib.isBlack = true) :
    ∃ up t, delTurn n p = some (up, t) ∧
      (if up then p.color = .black ∧ t.isBlack = true ∧ RBI t (h+1)
       else RBI t (match p.color with | .red => h+1 | .black => h+2) ∧
        (p.color = .black → t.isBlack = true)) := by
  obtain ⟨pd, pc, pe, ps⟩ := p
  simp only at hs hsb
  obtain ⟨sl, s, sr, rfl, hl, hr⟩ := RBI_black_cases hs hsb
  unfold delTurn
  simp only
  cases hlb : sl.isBlack <;> cases hrb : sr.isBlack
  · obtain ⟨a, x, b, rfl, ha, hb, hab, hbb⟩ := RBI_red_cases hl hlb
    obtain ⟨a', x', b', rfl, ha', hb', hab', hbb'⟩ := RBI_red_cases hr hrb
    cases pd <;> cases pc <;>
      simp [delInnerL, delInnerR, delOuterL, delOuterR, rotL, rotR, Frame.plug, RBI, *]
  · obtain ⟨a, x, b, rfl, ha, hb, hab, hbb⟩ := RBI_red_cases hl hlb
    cases pd <;> cases pc <;>
      simp [delInnerL, delInnerR, delOuterL, delOuterR, rotL, rotR, Frame.plug, RBI, *]
  · obtain ⟨a, x, b, rfl, ha, hb, hab, hbb⟩ := RBI_red_cases hr hrb
    cases pd <;> cases pc <;>
      simp [delInnerL, delInnerR, delOuterL, delOuterR, rotL, rotR, Frame.plug, RBI, *]
  · cases pc <;> cases pd <;> simp [Frame.plug, RBI, *]

theorem RBI_delLoop (n : Tree K D) (p : Path K D) (h : Nat) (hn : RBI n h) (hnb : n.isBlack = true)
    (hp : PRB p (h+1)) : ∃ t m, delLoop n p = some t ∧ RBI t m ∧ t.isBlack = true := by
  induction p generalizing n h with
  | nil => exact ⟨n, h, rfl, hn, hnb⟩
  | cons p rest ih =>
    obtain ⟨pd, pc, pe, ps⟩ := p
    simp only [PRB] at hp
    obtain ⟨hs, hp⟩ := hp
    unfold delLoop
    cases hsb : ps.isBlack
    · obtain ⟨sl, s, sr, rfl, hl, hr, hlb, hrb⟩ := RBI_red_cases hs hsb
      cases pc with
      | red => simp [isBlack] at hp
      | black =>
      cases pd
      · simp only [hlb, if_true]
        obtain ⟨up, t, ht, hup⟩ := RBI_delTurn n ⟨.left, .red, pe, sl⟩ h hn hnb hl hlb
        rw [ht]
        cases up
        · simp at hup
          obtain ⟨m, h1, h2⟩ := RBI_zip rest (node .black t s sr) (h+1+1) hp
            (by simp [RBI, hup, hr]) (Or.inl rfl)
          exact ⟨_, m, rfl, h1, h2⟩
        · simp at hup
      · simp only [hrb, if_true]
        obtain ⟨up, t, ht, hup⟩ := RBI_delTurn n ⟨.right, .red, pe, sr⟩ h hn hnb hr hrb
        rw [ht]
        cases up
        · simp at hup
          obtain ⟨m, h1, h2⟩ := RBI_zip rest (node .black sl s t) (h+1+1) hp
            (by simp [RBI, hup, hl]) (Or.inl rfl)
          exact ⟨_, m, rfl, h1, h2⟩
        · simp at hup
    · obtain ⟨sl, s, sr, rfl, hl, hr⟩ := RBI_black_cases hs hsb
      simp only
      obtain ⟨up, t, ht, hup⟩ := RBI_delTurn n ⟨pd, pc, pe, node .black sl s sr⟩ h hn hnb hs hsb
      rw [ht]
      cases up
      · simp only [Bool.false_eq_true, if_false] at hup
        cases pc
        · simp at hup hp
          obtain ⟨m, h1, h2⟩ := RBI_zip rest t (h+1) hp.2 hup (Or.inr hp.1)
          exact ⟨_, m, rfl, h1, h2⟩
        · simp at hup hp
          obtain ⟨m, h1, h2⟩ := RBI_zip rest t (h+1+1) hp hup.1 (Or.inl hup.2)
          exact ⟨_, m, rfl, h1, h2⟩
      · simp only [if_true] at hup
        obtain ⟨hc, htb, hti⟩ := hup
        subst hc
        exact ih t (h+1) hti htb hp

theorem RBI_delFix (n : Tree K D) (p : Path K D) (h : Nat) (hn : RBI n h)
    (hp : PRB p (h+1)) (_ : p ≠ []) : ∃ t m, delFix n p = some t ∧ RBI t m ∧ t.isBlack = true := by
  unfold delFix
  cases hb : n.isBlack
  · obtain ⟨m, h1, h2⟩ := RBI_zip p (n.setColor .black) (h+1) hp (RBI_setBlack hn hb)
      (Or.inl (by cases n <;> rfl))
    exact ⟨_, m, rfl, h1, h2⟩
  · simpa using RBI_delLoop n p h hn hb hp

/-! ## Descent, location, minimum -/

theorem descend_leaf (cmp : K → K → Ordering) (k : K) (t : Tree K D) (p q : Path K D)
    (h : descend cmp k t p = .leaf q) : zip q nil = zip p t := by
  induction t generalizing p with
  | nil => simp [descend] at h; simp [h]
  | node c l e r ihl ihr =>
    simp only [descend] at h
    split at h
    · cases h
    · rw [ihl _ h]; simp [zip, Frame.plug]
    · rw [ihr _ h]; simp [zip, Frame.plug]

theorem PRB_left {c : Color} {l : Tree K D} {e : Entry K D} {r : Tree K D} {p : Path K D} {n : Nat}
    (hp : PRB p n) (ht : RBI (node c l e r) n) (hc : (node c l e r).isBlack = true ∨ headBlack p) :
    ∃ m, PRB (⟨.left, c, e, r⟩ :: p) m ∧ RBI l m ∧ (l.isBlack = true ∨ c = .black) := by
  cases c
  · simp [RBI] at ht; simp at hc
    exact ⟨n, by simp [PRB, ht, hc, hp], ht.1, Or.inl ht.2.2.1⟩
  · simp [RBI] at ht
    obtain ⟨m, rfl, h1, h2⟩ := ht
    exact ⟨m, by simp [PRB, h2, hp], h1, Or.inr rfl⟩

theorem PRB_right {c : Color} {l : Tree K D} {e : Entry K D} {r : Tree K D} {p : Path K D} {n : Nat}
    (hp : PRB p n) (ht : RBI (node c l e r) n) (hc : (node c l e r).isBlack = true ∨ headBlack p) :
    ∃ m, PRB (⟨.right, c, e, l⟩ :: p) m ∧ RBI r m ∧ (r.isBlack = true ∨ c = .black) := by
  cases c
  · simp [RBI] at ht; simp at hc
    exact ⟨n, by simp [PRB, ht, hc, hp], ht.2.1, Or.inl ht.2.2.2⟩
  · simp [RBI] at ht
    obtain ⟨m, rfl, h1, h2⟩ := ht
    exact ⟨m, by simp [PRB, h1, hp], h2, Or.inr rfl⟩

theorem descend_PRB (cmp : K → K → Ordering) (k : K) (t : Tree K D) (p q : Path K D) (n : Nat)
    (h : descend cmp k t p = .leaf q) (hp : PRB p n) (ht : RBI t n)
    (hc : t.isBlack = true ∨ headBlack p) : PRB q 0 := by
  induction t generalizing p n with
  | nil => simp [descend] at h; simp [RBI] at ht; subst ht h; exact hp
  | node c l e r ihl ihr =>
    simp only [descend] at h
    split at h
    · cases h
    · obtain ⟨m, h1, h2, h3⟩ := PRB_left hp ht hc
      exact ihl _ m h h1 h2 h3
    · obtain ⟨m, h1, h2, h3⟩ := PRB_right hp ht hc
      exact ihr _ m h h1 h2 h3

/-- Keys left of the search position are smaller, keys right of it larger. -/
theorem descend_order (cmp : K → K → Ordering) (hcmp : LawfulCmp cmp) (k : K) (t : Tree K D)
    (p q : Path K D) (h : descend cmp k t p = .leaf q)
    (hs : t.toList.Pairwise (fun a b => cmp a.key b.key = .lt))
    (hl : ∀ a ∈ lefts p, cmp a.key k = .lt) (hr : ∀ a ∈ rights p, cmp k a.key = .lt) :
    (∀ a ∈ lefts q, cmp a.key k = .lt) ∧ (∀ a ∈ rights q, cmp k a.key = .lt) := by
  induction t generalizing p with
  | nil => simp [descend] at h; subst h; exact ⟨hl, hr⟩
  | node c l e r ihl ihr =>
    simp only [descend] at h
    simp only [toList, List.pairwise_append, List.pairwise_cons] at hs
    obtain ⟨hsl, ⟨her, hsr⟩, hlr⟩ := hs
    split at h
    · cases h
    · rename_i hk
      refine ihl _ h hsl ?_ ?_
      · simpa [lefts] using hl
      · intro a ha
        simp only [rights, List.mem_append, List.mem_cons] at ha
        rcases ha with (rfl | ha) | ha
        · exact hk
        · exact hcmp.lt_trans _ _ _ hk (her a ha)
        · exact hr a ha
    · rename_i hk
      have hk' := (hcmp.lt_iff_gt _ _).2 hk
      refine ihr _ h hsr ?_ ?_
      · intro a ha
        simp only [lefts, List.mem_append, List.mem_cons, List.not_mem_nil, or_false] at ha
        rcases ha with ha | ha | rfl
        · exact hl a ha
        · exact hcmp.lt_trans _ _ _ (hlr a ha e (by simp)) hk'
        · exact hk'
      · simpa [rights] using hr

theorem descend_equal (cmp : K → K → Ordering) (hcmp : LawfulCmp cmp) (k : K) (t : Tree K D)
    (p : Path K D) (e : Entry K D) (h : descend cmp k t p = .equal e) :
    e ∈ t.toList ∧ e.key = k := by
  induction t generalizing p with
  | nil => simp [descend] at h
  | node c l e' r ihl ihr =>
    simp only [descend] at h
    split at h
    · rename_i hk; cases h; exact ⟨by simp [toList], ((hcmp.eq_iff _ _).1 hk).symm⟩
    · have := ihl _ h; exact ⟨by simp [toList, this], this.2⟩
    · have := ihr _ h; exact ⟨by simp [toList, this], this.2⟩

theorem locate_some (a : Nat) (t : Tree K D) (p : Path K D) (n : Nat) (x)
    (h : locate a t p = some x) (hp : PRB p n) (ht : RBI t n)
    (hc : t.isBlack = true ∨ headBlack p) :
    zip x.2.2.2.2 (node x.1 x.2.1 x.2.2.1 x.2.2.2.1) = zip p t ∧ x.2.2.1.addr = a ∧
    ∃ m, PRB x.2.2.2.2 m ∧ RBI (node x.1 x.2.1 x.2.2.1 x.2.2.2.1) m ∧
      ((node x.1 x.2.1 x.2.2.1 x.2.2.2.1).isBlack = true ∨ headBlack x.2.2.2.2) := by
  induction t generalizing p n with
  | nil => simp [locate] at h
  | node c l e r ihl ihr =>
    simp only [locate] at h
    split at h
    · rename_i ha
      cases h
      exact ⟨rfl, ha, n, hp, ht, hc⟩
    · split at h
      · rename_i hl
        cases h
        obtain ⟨m, h1, h2, h3⟩ := PRB_left hp ht hc
        have := ihl _ m hl h1 h2 h3
        simpa [zip, Frame.plug] using this
      · obtain ⟨m, h1, h2, h3⟩ := PRB_right hp ht hc
        have := ihr _ m h h1 h2 h3
        simpa [zip, Frame.plug] using this

theorem locate_none (a : Nat) (t : Tree K D) (p : Path K D) (h : locate a t p = none) :
    ∀ e ∈ t.toList, e.addr ≠ a := by
  induction t generalizing p with
  | nil => simp [toList]
  | node c l e r ihl ihr =>
    simp only [locate] at h
    split at h
    · cases h
    · rename_i hne
      split at h
      · cases h
      · rename_i hl
        intro x hx
        simp only [toList, List.mem_append, List.mem_cons] at hx
        rcases hx with hx | rfl | hx
        · exact ihl _ hl x hx
        · exact hne
        · exact ihr _ h x hx

theorem minPath_some (t : Tree K D) (p : Path K D) (n : Nat) (ht : RBI t n) (hp : PRB p n)
    (hc : t.isBlack = true ∨ headBlack p) (hne : t ≠ nil) :
    ∃ mc m mrc mp q, minPath t p = some (mc, m, mrc, mp) ∧ mp = q ++ p ∧
      zip mp (node mc nil m mrc) = zip p t ∧ lefts q = [] ∧
      ∃ k, PRB mp k ∧ RBI (node mc nil m mrc) k ∧
        ((node mc nil m mrc).isBlack = true ∨ headBlack mp) := by
  fun_induction minPath t p generalizing n with
  | case1 => exact absurd rfl hne
  | case2 c e r p => exact ⟨c, e, r, p, [], rfl, rfl, rfl, rfl, n, hp, ht, hc⟩
  | case3 c c' l' e' r' e r p ih =>
    obtain ⟨m, h1, h2, h3⟩ := PRB_left hp ht hc
    obtain ⟨mc, me, mrc, mp, q, g1, g2, g3, g4, g5⟩ := ih m h2 h1 h3 (by simp)
    refine ⟨mc, me, mrc, mp, q ++ [⟨.left, c, e, r⟩], g1, by simp [g2], ?_, ?_, g5⟩
    · rw [g3]; simp [zip, Frame.plug]
    · simp [lefts_append, lefts, g4]

theorem minPath_append (t : Tree K D) (p q : Path K D) :
    minPath t (p ++ q) = (minPath t p).map fun x => (x.1, x.2.1, x.2.2.1, x.2.2.2 ++ q) := by
  fun_induction minPath t p with
  | case1 => simp [minPath]
  | case2 => simp [minPath]
  | case3 c c' l' e' r' e r p ih => simpa [minPath] using ih

/-! ## Invariant of the whole index -/

/-- The abstract item stored in a node. -/
def Entry.item (e : Entry K D) : Item K D := ⟨e.key, e.data, e.handle⟩

structure Inv (cmp : K → K → Ordering) (s : State K D) (m : List (Item K D)) : Prop where
  count : s.count = s.tree.toList.length
  rb : ∃ n, RBI s.tree n ∧ s.tree.isBlack = true
  sorted : s.tree.toList.Pairwise (fun a b => cmp a.key b.key = .lt)
  addrs : (s.tree.toList.map (·.addr)).Nodup
  handles : ∀ e ∈ s.tree.toList, ∀ h, e.handle = some h → s.handles h = some e.addr
  hdist : s.tree.toList.Pairwise (fun a b => a.handle = none ∨ a.handle ≠ b.handle)
  abs : (s.tree.toList.map Entry.item).Perm m

/-- Shape of the tree after a deletion. -/
theorem delete_spec (cmp : K → K → Ordering) (s : State K D) (m : List (Item K D)) (hi : Inv cmp s m)
    (e : Entry K D) (he : e ∈ s.tree.toList) :
    ∃ s' A B, s.delete e.addr = some s' ∧ s.tree.toList = A ++ e :: B ∧
      s'.count = s'.tree.toList.length ∧ (∃ n, RBI s'.tree n ∧ s'.tree.isBlack = true) ∧
      ((s'.tree.toList = A ++ B ∧ s'.handles = setHandle e.handle none s.handles) ∨
       (∃ x B', B = x :: B' ∧ s'.tree.toList = A ++ ⟨e.addr, x.key, x.data, x.handle⟩ :: B' ∧
         s'.handles = setHandle x.handle (some e.addr) (setHandle e.handle none s.handles))) := by
  have hcnt : s.count ≠ 0 := by
    rw [hi.count]; intro h; rw [List.length_eq_zero_iff] at h; rw [h] at he; simp at he
  unfold State.delete
  rw [if_neg hcnt]
  obtain ⟨n, hn, hb⟩ := hi.rb
  cases hloc : locate e.addr s.tree [] with
  | none => exact absurd rfl (locate_none _ _ _ hloc e he)
  | some x =>
    obtain ⟨c, l, e', r, p⟩ := x
    obtain ⟨hz, ha, k, hp, ht, hc⟩ := locate_some _ _ _ n _ hloc trivial hn (Or.inl hb)
    simp only [zip] at hz ha hp ht hc
    have hlist : s.tree.toList = lefts p ++ l.toList ++ e' :: (r.toList ++ rights p) := by
      rw [← hz, toList_zip]; simp [toList]
    have hee : e' = e := by
      have hd := hi.addrs
      have h1 : e' ∈ s.tree.toList := by rw [hlist]; simp
      have : ∀ (L : List (Entry K D)), (L.map (·.addr)).Nodup → e ∈ L → e' ∈ L → e' = e := by
        intro L
        induction L with
        | nil => intro _ h; simp at h
        | cons y L ih =>
          intro hnd h1 h2
          simp only [List.map_cons, List.nodup_cons, List.mem_map, not_exists, not_and] at hnd
          simp only [List.mem_cons] at h1 h2
          rcases h1 with rfl | h1 <;> rcases h2 with rfl | h2
          · rfl
          · exact absurd ha (hnd.1 _ h2)
          · exact absurd ha.symm (hnd.1 _ h1)
          · exact ih hnd.2 h1 h2
      exact this _ hd he h1
    subst hee
    have hlen : s.count = (lefts p).length + l.toList.length + (r.toList.length + (rights p).length) + 1 := by
      rw [hi.count, hlist]; simp; omega
    cases r with
    | nil =>
      cases l with
      | nil =>
        cases p with
        | nil =>
          refine ⟨_, [], [], rfl, by simpa [lefts, rights, toList] using hlist, rfl, ⟨0, rfl, rfl⟩, Or.inl ⟨rfl, rfl⟩⟩
        | cons f rest =>
          cases c
          · simp only [reduceCtorEq, if_false]
            refine ⟨_, lefts (f :: rest), rights (f :: rest), rfl, by simpa [toList] using hlist, ?_, ?_, Or.inl ⟨?_, rfl⟩⟩
            · simp [toList_zip, toList, hlen]
            · simp [RBI] at ht
              exact RBI_zip _ _ k hp (by simp [RBI, ht]) (Or.inl rfl)
            · simp [toList_zip, toList]
          · simp [RBI] at ht
            subst ht
            obtain ⟨t, m', h1, h2, h3⟩ := RBI_delFix (nil : Tree K D) (f :: rest) 0 rfl hp (by simp)
            simp only [if_true, h1]
            have := toList_delFix _ _ _ h1
            refine ⟨_, lefts (f :: rest), rights (f :: rest), rfl, by simpa [toList] using hlist, ?_, ⟨m', h2, h3⟩, Or.inl ⟨?_, rfl⟩⟩
            · simp [this, toList, hlen]
            · simp [this, toList]
      | node lc ll le lr =>
        cases p with
        | nil =>
          refine ⟨_, (node lc ll le lr).toList, [], rfl, by simpa [lefts, rights, toList] using hlist, ?_, ?_, Or.inl ⟨?_, rfl⟩⟩
          · simp [hlen, lefts, rights, toList]
          · cases c
            · simp [headBlack] at hc
            · simp [RBI] at ht
              obtain ⟨rfl, h1⟩ := ht
              cases lc
              · simp [RBI] at h1
                exact ⟨1, by simp [RBI, h1], rfl⟩
              · simp [RBI] at h1
          · simp [toList]
        | cons f rest =>
          cases c
          · exfalso
            simp [RBI] at ht
            obtain ⟨h1, h2, h3⟩ := ht
            subst h2
            cases lc
            · simp at h3
            · simp [RBI] at h1
          · simp only [if_true]
            simp [RBI] at ht
            obtain ⟨rfl, g1⟩ := ht
            obtain ⟨t, m'', h1, h2, h3⟩ := RBI_delFix (node lc ll le lr) (f :: rest) 0 g1 hp (by simp)
            simp only [h1]
            have := toList_delFix _ _ _ h1
            refine ⟨_, lefts (f :: rest) ++ (node lc ll le lr).toList, rights (f :: rest), rfl, by simpa [toList] using hlist, ?_, ⟨m'', h2, h3⟩, Or.inl ⟨?_, rfl⟩⟩
            · simp [this, hlen, toList]; omega
            · simp [this]
    | node rc rl re rr =>
      obtain ⟨mr, hpr, hr, hcr⟩ := PRB_right hp ht hc
      obtain ⟨mc, x, mrc, mp, q, g1, g2, g3, g4, mk, g5, g6, g7⟩ :=
        minPath_some (node rc rl re rr) _ mr hr hpr hcr (by simp)
      have hap := fun e'' : Entry K D => minPath_append (node rc rl re rr) [] (⟨.right, c, e'', l⟩ :: p)
      simp only [List.nil_append] at hap
      cases hm : minPath (node rc rl re rr) [] with
      | none => rw [hap, hm] at g1; simp at g1
      | some y =>
        clear g1 g2 g3 g4 g5 g6 g7 mc x mrc mp q mk
        obtain ⟨mc', x', mrc', mp'⟩ := y
        simp only
        generalize hP : (⟨.right, c, ⟨e'.addr, x'.key, x'.data, x'.handle⟩, l⟩ : Frame K D) :: p = P
        have hpr' : PRB P mr := by rw [← hP]; exact hpr
        have hcr' : (node rc rl re rr).isBlack = true ∨ headBlack P := by
          rw [← hP]; exact hcr
        obtain ⟨mc, x, mrc, mp, q, g1, g2, g3, g4, mk, g5, g6, g7⟩ :=
          minPath_some (node rc rl re rr) _ mr hr hpr' hcr' (by simp)
        rw [← hP, hap, hm] at g1
        simp only [Option.map_some, Option.some.injEq, Prod.mk.injEq] at g1
        obtain ⟨rfl, rfl, rfl, g1⟩ := g1
        rw [hP] at g1
        subst g1
        have hq : mp' = q := List.append_cancel_right g2
        subst hq
        have hrl : (node rc rl re rr).toList = x' :: (mrc'.toList ++ rights mp') := by
          have h := congrArg toList g3
          rw [toList_zip, toList_zip, lefts_append, rights_append, g4] at h
          generalize (node rc rl re rr).toList = L at h ⊢
          simp only [toList, List.append_nil, List.nil_append, List.append_assoc,
            List.append_cancel_left_eq, List.cons_append] at h
          have h2 : (x' :: (mrc'.toList ++ rights mp')) ++ rights P = L ++ rights P := by simpa using h
          exact (List.append_cancel_right h2).symm
        have hres : lefts (mp' ++ P) ++ mrc'.toList ++ rights (mp' ++ P) =
            lefts p ++ l.toList ++ ⟨e'.addr, x'.key, x'.data, x'.handle⟩ ::
              (mrc'.toList ++ rights mp' ++ rights p) := by
          rw [lefts_append, rights_append, g4, ← hP]; simp [lefts, rights]
        have hP0 : mp' ++ P ≠ [] := by rw [← hP]; simp
        have hfin : ∃ t m'', (if mc' = Color.black then delFix mrc' (mp' ++ P) else some (zip (mp' ++ P) mrc')) = some t
            ∧ RBI t m'' ∧ t.isBlack = true ∧ t.toList = lefts (mp' ++ P) ++ mrc'.toList ++ rights (mp' ++ P) := by
          cases mc'
          · simp only [reduceCtorEq, if_false]
            simp [RBI] at g6
            obtain ⟨m'', h1, h2⟩ := RBI_zip (mp' ++ P) mrc' mk g5 g6.2.1 (Or.inl g6.2.2)
            exact ⟨_, m'', rfl, h1, h2, toList_zip _ _⟩
          · simp [RBI] at g6
            obtain ⟨k', g6a, g6b, g6c⟩ := g6
            subst g6a
            obtain ⟨t, m'', h1, h2, h3⟩ := RBI_delFix mrc' (mp' ++ P) _ g6c g5 hP0
            exact ⟨t, m'', by simpa using h1, h2, h3, toList_delFix _ _ _ h1⟩
        obtain ⟨t, m'', f1, f2, f3, f4⟩ := hfin
        refine ⟨⟨t, s.count - 1, setHandle x'.handle (some e'.addr) (setHandle e'.handle none s.handles)⟩,
          lefts p ++ l.toList, (node rc rl re rr).toList ++ rights p, ?_, hlist, ?_, ⟨m'', f2, f3⟩, Or.inr
          ⟨x', mrc'.toList ++ rights mp' ++ rights p, by rw [hrl]; simp, by rw [f4, hres], rfl⟩⟩
        · split at f1
          · rename_i hmc; simp only [hm, hP]; rw [if_pos hmc, f1]
          · rename_i hmc
            simp only [hm, hP]; rw [if_neg hmc, Option.some.inj f1]
        · simp only [f4, hres, hlen, hrl]; simp; omega

theorem setHandle_some_other {h : Nat} {x : Option Nat} {v : Option Nat} {m : Nat → Option Nat}
    (hne : x ≠ some h) : setHandle x v m h = m h := by
  unfold setHandle
  cases x with
  | none => rfl
  | some y =>
    simp only
    rw [if_neg]; rintro rfl; exact hne rfl

/-- Deleting the node of a live entry removes exactly that entry and keeps the invariant. -/
theorem delete_inv [DecidableEq K] (cmp : K → K → Ordering) (hcmp : LawfulCmp cmp) (s : State K D)
    (m : List (Item K D)) (hi : Inv cmp s m) (e : Entry K D) (he : e ∈ s.tree.toList)
    (P : Item K D → Bool) (hP : P e.item = false)
    (hP' : ∀ x ∈ s.tree.toList, x ≠ e → P x.item = true) :
    ∃ s', s.delete e.addr = some s' ∧ Inv cmp s' (m.filter P) := by
  obtain ⟨s', A, B, h1, h2, h3, h4, h5⟩ := delete_spec cmp s m hi e he
  refine ⟨s', h1, ?_⟩
  have hnd : s.tree.toList.Nodup :=
    List.Pairwise.of_map (·.addr) (fun a b h hab => h (by rw [hab])) hi.addrs
  rw [h2] at hnd
  have hA : ∀ x ∈ A, x ≠ e := by
    rintro x hx rfl
    rw [List.nodup_append] at hnd
    exact hnd.2.2 x hx x (by simp) rfl
  have hB : ∀ x ∈ B, x ≠ e := by
    rintro x hx rfl
    rw [List.nodup_append, List.nodup_cons] at hnd
    exact hnd.2.1.1 hx
  have hitems : s'.tree.toList.map Entry.item = A.map Entry.item ++ B.map Entry.item := by
    rcases h5 with ⟨h5, _⟩ | ⟨x, B', rfl, h5, _⟩
    · simp [h5]
    · simp [h5, Entry.item]
  have hfilt : (s.tree.toList.map Entry.item).filter P = s'.tree.toList.map Entry.item := by
    rw [h2, hitems]
    have fA : (A.map Entry.item).filter P = A.map Entry.item := by
      rw [List.filter_eq_self]
      simp only [List.mem_map, forall_exists_index, and_imp, forall_apply_eq_imp_iff₂]
      intro x hx; exact hP' x (by rw [h2]; simp [hx]) (hA x hx)
    have fB : (B.map Entry.item).filter P = B.map Entry.item := by
      rw [List.filter_eq_self]
      simp only [List.mem_map, forall_exists_index, and_imp, forall_apply_eq_imp_iff₂]
      intro x hx; exact hP' x (by rw [h2]; simp [hx]) (hB x hx)
    simp [List.filter_cons, hP, fA, fB]
  have hs := hi.sorted
  have ha := hi.addrs
  have hd := hi.hdist
  have hh := hi.handles
  rw [h2] at hs ha hd hh
  refine ⟨h3, h4, ?_, ?_, ?_, ?_, ?_⟩
  · rcases h5 with ⟨h5, _⟩ | ⟨x, B', rfl, h5, _⟩
    · rw [h5]
      exact hs.sublist (List.Sublist.append (List.Sublist.refl _) (List.sublist_cons_self _ _))
    · rw [h5]
      have := hs.sublist (List.Sublist.append (List.Sublist.refl A) (List.sublist_cons_self e (x :: B')))
      simp only [List.pairwise_append, List.pairwise_cons] at this ⊢
      refine ⟨this.1, ⟨this.2.1.1, this.2.1.2⟩, ?_⟩
      intro a ha b hb
      simp only [List.mem_cons] at hb
      rcases hb with rfl | hb
      · exact this.2.2 a ha x (by simp)
      · exact this.2.2 a ha b (by simp [hb])
  · rcases h5 with ⟨h5, _⟩ | ⟨x, B', rfl, h5, _⟩
    · rw [h5]
      exact ha.sublist (List.Sublist.map _ (List.Sublist.append (List.Sublist.refl _) (List.sublist_cons_self _ _)))
    · rw [h5]
      refine ha.sublist ?_
      simp only [List.map_append, List.map_cons]
      exact List.Sublist.append (List.Sublist.refl _) ((List.sublist_cons_self _ _).cons_cons _)
  · have hdne : ∀ x ∈ A ++ B, ∀ h, x.handle = some h → e.handle ≠ some h := by
      intro x hx h hxh heh
      rw [List.pairwise_append] at hd
      simp only [List.pairwise_cons] at hd
      simp only [List.mem_append] at hx
      rcases hx with hx | hx
      · rcases hd.2.2 x hx e (by simp) with h' | h'
        · simp [h'] at hxh
        · exact h' (by rw [hxh, heh])
      · rcases hd.2.1.1 x hx with h' | h'
        · simp [h'] at heh
        · exact h' (by rw [hxh, heh])
    rcases h5 with ⟨h5, h6⟩ | ⟨x, B', rfl, h5, h6⟩
    · rw [h5, h6]
      intro y hy h hyh
      rw [setHandle_some_other (hdne y hy h hyh)]
      refine hh y ?_ h hyh
      simp only [List.mem_append, List.mem_cons] at hy ⊢
      rcases hy with hy | hy <;> simp [hy]
    · rw [h5, h6]
      intro y hy h hyh
      simp only [List.mem_append, List.mem_cons] at hy
      by_cases hyx : x.handle = some h
      · have : setHandle x.handle (some e.addr) (setHandle e.handle none s.handles) h = some e.addr := by
          rw [hyx]; simp [setHandle]
        rw [this]
        rcases hy with hy | rfl | hy
        · exfalso
          rw [List.pairwise_append] at hd
          rcases hd.2.2 y hy x (by simp) with h' | h'
          · simp [h'] at hyh
          · exact h' (by rw [hyh, hyx])
        · rfl
        · exfalso
          rw [List.pairwise_append] at hd
          simp only [List.pairwise_cons] at hd
          rcases hd.2.1.2.1 y hy with h' | h'
          · simp [h'] at hyx
          · exact h' (by rw [hyh, hyx])
      · rw [setHandle_some_other hyx]
        rcases hy with hy | rfl | hy
        · rw [setHandle_some_other (hdne y (by simp [hy]) h hyh)]
          exact hh y (by simp [hy]) h hyh
        · exact absurd hyh hyx
        · rw [setHandle_some_other (hdne y (by simp [hy]) h hyh)]
          exact hh y (by simp [hy]) h hyh
  · have hmap : ∀ L : List (Entry K D), L.Pairwise (fun a b => a.handle = none ∨ a.handle ≠ b.handle) ↔
        (L.map Entry.item).Pairwise (fun a b => a.handle = none ∨ a.handle ≠ b.handle) := by
      intro L; rw [List.pairwise_map]; rfl
    rw [hmap, hitems, ← List.map_append, ← hmap]
    exact hd.sublist (List.Sublist.append (List.Sublist.refl _) (List.sublist_cons_self _ _))
  · rw [← hfilt]
    exact hi.abs.filter P

theorem inv_init (cmp : K → K → Ordering) : Inv cmp (State.init : State K D) [] :=
  ⟨rfl, ⟨0, rfl, rfl⟩, List.Pairwise.nil, List.nodup_nil, by simp [State.init, toList],
    List.Pairwise.nil, List.Perm.nil⟩

theorem insert_inv [DecidableEq K] (cmp : K → K → Ordering) (hcmp : LawfulCmp cmp) (s : State K D)
    (m : List (Item K D)) (hi : Inv cmp s m) (a : Nat) (k : K) (d : D) (h : Option Nat)
    (ha : ∀ e ∈ s.tree.toList, e.addr ≠ a) (hh : ∀ i ∈ m, h = none ∨ i.handle ≠ h) :
    ∃ s' x, s.insert cmp a k d h = some (s', x) ∧ Inv cmp s' (specStep m (.insert a k d h)) := by
  have hh' : ∀ e ∈ s.tree.toList, h = none ∨ e.handle ≠ h := by
    intro e he
    exact hh e.item ((hi.abs.mem_iff).1 (List.mem_map_of_mem he))
  have hkey : (∃ i ∈ m, i.key = k) ↔ ∃ e ∈ s.tree.toList, e.key = k := by
    constructor
    · rintro ⟨i, h1, h2⟩
      have := (hi.abs.mem_iff).2 h1
      rw [List.mem_map] at this
      obtain ⟨e, he, rfl⟩ := this
      exact ⟨e, he, h2⟩
    · rintro ⟨e, h1, h2⟩
      exact ⟨e.item, (hi.abs.mem_iff).1 (List.mem_map_of_mem h1), h2⟩
  have hset : ∀ e ∈ s.tree.toList, ∀ h', e.handle = some h' →
      setHandle h (some a) s.handles h' = some e.addr := by
    intro e he h' heh
    rw [setHandle_some_other]
    · exact hi.handles e he h' heh
    · rintro rfl
      rcases hh' e he with h1 | h1
      · cases h1
      · exact h1 heh
  unfold State.insert
  by_cases hc : s.count = 0
  · have hnil : s.tree.toList = [] := by
      rw [hi.count] at hc; exact List.length_eq_zero_iff.1 hc
    have hm : m = [] := by
      have := hi.abs; rw [hnil] at this; simpa using this
    subst hm
    simp only [hc, if_true]
    refine ⟨_, _, rfl, ?_⟩
    refine ⟨by simp [toList], ⟨1, by simp [RBI], rfl⟩, by simp [toList], by simp [toList], ?_, by simp [toList], by simp [toList, specStep, Entry.item]⟩
    simp only [toList, List.nil_append, List.mem_cons, List.not_mem_nil, or_false]
    rintro e rfl h' heh
    simp only at heh
    simp [setHandle, heh]
  · rw [if_neg hc]
    cases hdes : descend cmp k s.tree [] with
    | equal e =>
      obtain ⟨h1, h2⟩ := descend_equal cmp hcmp k _ _ _ hdes
      refine ⟨_, _, rfl, ?_⟩
      have : specStep m (.insert a k d h) = m := by
        simp only [specStep]; rw [if_pos (hkey.2 ⟨e, h1, h2⟩)]
      rw [this]
      exact ⟨hi.count, hi.rb, hi.sorted, hi.addrs, hset, hi.hdist, hi.abs⟩
    | leaf p =>
      obtain ⟨n, hn, hb⟩ := hi.rb
      have hp := descend_PRB cmp k _ _ _ n hdes trivial hn (Or.inl hb)
      obtain ⟨t, m', h1, h2, h3⟩ := RBI_insFix (node .red nil ⟨a, k, d, h⟩ nil) p 0 (by simp [RBI]) rfl hp
      have hl := toList_insFix _ _ _ h1
      have hz := congrArg toList (descend_leaf cmp k _ _ _ hdes)
      rw [toList_zip] at hz
      simp only [toList, List.append_nil, zip, List.nil_append] at hz hl
      obtain ⟨o1, o2⟩ := descend_order cmp hcmp k _ _ _ hdes hi.sorted (by simp [lefts]) (by simp [rights])
      have hkabs : ¬ ∃ e ∈ s.tree.toList, e.key = k := by
        rintro ⟨e, he, hk⟩
        rw [← hz, List.mem_append] at he
        have hirr : cmp k k ≠ .lt := by
          rw [(hcmp.eq_iff k k).2 rfl]; simp
        rcases he with he | he
        · have := o1 e he; rw [hk] at this; exact hirr this
        · have := o2 e he; rw [hk] at this; exact hirr this
      simp only [h1]
      refine ⟨_, _, rfl, ?_⟩
      have hspec : specStep m (.insert a k d h) = m ++ [⟨k, d, h⟩] := by
        simp only [specStep]; rw [if_neg (fun hx => hkabs (hkey.1 hx))]
      rw [hspec]
      have hs := hi.sorted
      have hadd := hi.addrs
      have hdist := hi.hdist
      refine ⟨?_, ⟨m', h2, h3⟩, ?_, ?_, ?_, ?_, ?_⟩
      · simp only [hl, hi.count, ← hz]; simp; omega
      · simp only [hl]
        rw [← hz, List.pairwise_append] at hs
        simp only [List.append_assoc, List.singleton_append, List.pairwise_append, List.pairwise_cons]
        refine ⟨hs.1, ⟨o2, hs.2.1⟩, ?_⟩
        intro x hx y hy
        simp only [List.mem_cons] at hy
        rcases hy with rfl | hy
        · exact o1 x hx
        · exact hs.2.2 x hx y hy
      · simp only [hl]
        have hperm : ((lefts p ++ [(⟨a, k, d, h⟩ : Entry K D)] ++ rights p).map (fun e : Entry K D => e.addr)).Perm
            (a :: (s.tree.toList.map (fun e : Entry K D => e.addr))) := by
          rw [← hz]
          simp only [List.append_assoc, List.singleton_append, List.map_append, List.map_cons]
          exact List.perm_middle
        rw [hperm.nodup_iff, List.nodup_cons]
        refine ⟨?_, hadd⟩
        simp only [List.mem_map, not_exists, not_and]
        exact ha
      · simp only [hl]
        intro e he h' heh
        have : e = ⟨a, k, d, h⟩ ∨ e ∈ s.tree.toList := by
          rw [← hz]; simp only [List.mem_append, List.mem_singleton] at he ⊢
          rcases he with (he | he) | he <;> simp [he]
        rcases this with rfl | he'
        · simp only at heh; simp [setHandle, heh]
        · exact hset e he' h' heh
      · simp only [hl]
        have hperm : (lefts p ++ [(⟨a, k, d, h⟩ : Entry K D)] ++ rights p).Perm (⟨a, k, d, h⟩ :: s.tree.toList) := by
          rw [← hz]
          simp only [List.append_assoc, List.singleton_append]
          exact List.perm_middle
        refine (hperm.pairwise_iff ?_).2 ?_
        · intro x y hxy
          rcases hxy with hxy | hxy
          · by_cases hy : y.handle = none
            · exact Or.inl hy
            · right; rw [hxy]; exact hy
          · exact Or.inr (Ne.symm hxy)
        · rw [List.pairwise_cons]
          refine ⟨?_, hdist⟩
          intro e he
          rcases hh' e he with h1 | h1
          · exact Or.inl h1
          · exact Or.inr (Ne.symm h1)
      · simp only [hl]
        have hperm : ((lefts p ++ [(⟨a, k, d, h⟩ : Entry K D)] ++ rights p).map Entry.item).Perm
            (⟨k, d, h⟩ :: s.tree.toList.map Entry.item) := by
          rw [← hz]
          simp only [List.append_assoc, List.singleton_append, List.map_append, List.map_cons]
          exact List.perm_middle
        exact hperm.trans ((hi.abs.cons _).trans (List.perm_append_singleton _ _).symm)

theorem find_some {cmp : K → K → Ordering} (hcmp : LawfulCmp cmp) {k : K} {t : Tree K D} {e : Entry K D}
    (h : find cmp k t = some e) : e ∈ t.toList ∧ e.key = k := by
  induction t with
  | nil => simp [find] at h
  | node c l x r ihl ihr =>
    simp only [find] at h
    split at h
    · have := ihr h; exact ⟨by simp [toList, this], this.2⟩
    · rename_i hk; cases h; exact ⟨by simp [toList], ((hcmp.eq_iff _ _).1 hk).symm⟩
    · have := ihl h; exact ⟨by simp [toList, this], this.2⟩

theorem find_mem {cmp : K → K → Ordering} (hcmp : LawfulCmp cmp) {t : Tree K D}
    (hs : t.toList.Pairwise (fun a b => cmp a.key b.key = .lt)) {e : Entry K D} (he : e ∈ t.toList) :
    find cmp e.key t = some e := by
  induction t with
  | nil => simp [toList] at he
  | node c l x r ihl ihr =>
    simp only [toList, List.pairwise_append, List.pairwise_cons] at hs
    obtain ⟨h1, ⟨h2, h3⟩, h4⟩ := hs
    simp only [toList, List.mem_append, List.mem_cons] at he
    simp only [find]
    rcases he with he | rfl | he
    · rw [h4 e he x (by simp)]; exact ihl h1 he
    · rw [(hcmp.eq_iff _ _).2 rfl]
    · rw [(hcmp.lt_iff_gt _ _).1 (h2 e he)]; exact ihr h3 he

theorem key_inj {cmp : K → K → Ordering} (hcmp : LawfulCmp cmp) {L : List (Entry K D)}
    (hs : L.Pairwise (fun a b => cmp a.key b.key = .lt)) {x y : Entry K D} (hx : x ∈ L) (hy : y ∈ L)
    (h : x.key = y.key) : x = y := by
  have hirr : ∀ k, cmp k k ≠ .lt := by
    intro k; rw [(hcmp.eq_iff k k).2 rfl]; simp
  induction L with
  | nil => simp at hx
  | cons z L ih =>
    rw [List.pairwise_cons] at hs
    simp only [List.mem_cons] at hx hy
    rcases hx with rfl | hx <;> rcases hy with rfl | hy
    · rfl
    · have := hs.1 y hy; rw [h] at this; exact absurd this (hirr _)
    · have := hs.1 x hx; rw [h] at this; exact absurd this (hirr _)
    · exact ih hs.2 hx hy

theorem addr_inj {L : List (Entry K D)} (hnd : (L.map (·.addr)).Nodup) {x e : Entry K D}
    (hx : x ∈ L) (he : e ∈ L) (hadd : x.addr = e.addr) : x = e := by
  induction L with
  | nil => simp at hx
  | cons y L ih =>
    simp only [List.map_cons, List.nodup_cons, List.mem_map, not_exists, not_and] at hnd
    simp only [List.mem_cons] at hx he
    rcases hx with rfl | hx <;> rcases he with rfl | he
    · rfl
    · exact absurd hadd.symm (hnd.1 _ he)
    · exact absurd hadd (hnd.1 _ hx)
    · exact ih hnd.2 hx he

theorem step_inv [DecidableEq K] (cmp : K → K → Ordering) (hcmp : LawfulCmp cmp) (s : State K D)
    (m : List (Item K D)) (hi : Inv cmp s m) (op : Op K D) (hok : okOp s m op) :
    ∃ s', step cmp s op = some s' ∧ Inv cmp s' (specStep m op) := by
  cases op with
  | insert a k d h =>
    obtain ⟨s', x, h1, h2⟩ := insert_inv cmp hcmp s m hi a k d h hok.1 hok.2
    exact ⟨s', by simp [step, h1], h2⟩
  | deleteHandle h =>
    obtain ⟨i, h1, h2⟩ := hok
    have := (hi.abs.mem_iff).2 h1
    rw [List.mem_map] at this
    obtain ⟨e, he, rfl⟩ := this
    have hh := hi.handles e he h h2
    obtain ⟨s', g1, g2⟩ := delete_inv cmp hcmp s m hi e he (fun i => i.handle ≠ some h)
      (by have : e.handle = some h := h2
          simp [Entry.item, this]) (by
        intro x hx hne
        refine decide_eq_true ?_; show ¬ (_ = _)
        intro hxh
        have h3 := hi.handles x hx h hxh
        rw [hh] at h3
        have hadd : x.addr = e.addr := (Option.some.inj h3).symm
        apply hne
        exact addr_inj hi.addrs hx he hadd)
    exact ⟨s', by simp only [step, hh]; exact g1, g2⟩
  | deleteKey k =>
    simp only [step]
    cases hf : find cmp k s.tree with
    | none =>
      refine ⟨s, rfl, ?_⟩
      have : specStep m (.deleteKey k) = m := by
        simp only [specStep]
        rw [List.filter_eq_self]
        intro i hi'
        have := (hi.abs.mem_iff).2 hi'
        rw [List.mem_map] at this
        obtain ⟨e, he, rfl⟩ := this
        refine decide_eq_true ?_; show ¬ (_ = _)
        rintro rfl
        have hf' : find cmp e.key s.tree = none := hf
        rw [find_mem hcmp hi.sorted he] at hf'
        cases hf'
      rw [this]; exact hi
    | some e =>
      obtain ⟨he, hk⟩ := find_some hcmp hf
      obtain ⟨s', g1, g2⟩ := delete_inv cmp hcmp s m hi e he (fun i => i.key ≠ k)
        (by simp [Entry.item, hk]) (by
          intro x hx hne
          refine decide_eq_true ?_; show ¬ (_ = _)
          intro hxk
          exact hne (key_inj hcmp hi.sorted hx he (Eq.trans hxk hk.symm)))
      exact ⟨s', g1, g2⟩

theorem run_inv [DecidableEq K] (cmp : K → K → Ordering) (hcmp : LawfulCmp cmp) (s : State K D)
    (m : List (Item K D)) (ops : List (Op K D)) (hi : Inv cmp s m) (hv : Valid cmp s m ops) :
    ∃ s', run cmp s ops = some s' ∧ Inv cmp s' (specRun m ops) := by
  induction ops generalizing s m with
  | nil => exact ⟨s, rfl, hi⟩
  | cons op ops ih =>
    obtain ⟨h1, h2⟩ := hv
    obtain ⟨s1, g1, g2⟩ := step_inv cmp hcmp s m hi op h1
    obtain ⟨s2, g3, g4⟩ := ih s1 _ g2 (h2 s1 g1)
    exact ⟨s2, by simp only [run, g1]; exact g3, g4⟩

/-! ## Height -/

def height : Tree K D → Nat
  | nil => 0
  | node _ l _ r => 1 + max (height l) (height r)

theorem findSteps_le (cmp : K → K → Ordering) (k : K) (t : Tree K D) : findSteps cmp k t ≤ height t := by
  induction t with
  | nil => simp [findSteps]
  | node c l e r ihl ihr =>
    simp only [findSteps, height]
    split <;> omega

theorem height_le (t : Tree K D) (n : Nat) (h : RBI t n) :
    height t ≤ 2 * n + (if t.isBlack then 0 else 1) := by
  induction t generalizing n with
  | nil => simp [height]
  | node c l e r ihl ihr =>
    cases c
    · simp [RBI] at h
      have := ihl n h.1; have := ihr n h.2.1
      simp [h] at *
      simp [height]; omega
    · simp [RBI] at h
      obtain ⟨m, rfl, h1, h2⟩ := h
      have := ihl m h1; have := ihr m h2
      simp [height]
      have h3 : (if l.isBlack = true then 0 else 1) ≤ 1 := by split <;> omega
      have h4 : (if r.isBlack = true then 0 else 1) ≤ 1 := by split <;> omega
      omega

theorem size_ge (t : Tree K D) (n : Nat) (h : RBI t n) : 2 ^ n ≤ t.toList.length + 1 := by
  induction t generalizing n with
  | nil => simp [RBI] at h; simp [h, toList]
  | node c l e r ihl ihr =>
    cases c
    · simp [RBI] at h
      have := ihl n h.1
      simp [toList]; omega
    · simp [RBI] at h
      obtain ⟨m, rfl, h1, h2⟩ := h
      have := ihl m h1; have := ihr m h2
      simp [toList, Nat.pow_succ]; omega

end Fly.RB
