import Verif.Cache.Model
import Verif.Cache.Spec
import Verif.Response.Props
import Verif.ReqHeader.Props

set_option linter.all false

namespace Fly.Cache

open Fly.Header (HList HField cstr strEq)

/-! ## Hexadecimal -/

theorem hexByte_table : ∀ b < 256, hexByte b = if b < 128 then [hexDigit (b / 16), hexDigit (b % 16)] else [102, 102] := by
  decide +kernel

theorem hexByte_len (b : Nat) (h : b < 256) : (hexByte b).length = 2 := by
  rw [hexByte_table b h]; split <;> rfl

theorem hexByte_eq : ∀ a < 256, ∀ b < 256, hexByte a = hexByte b → a = b ∨ (128 ≤ a ∧ 128 ≤ b) := by
  intro a ha b hb h
  rw [hexByte_table a ha, hexByte_table b hb] at h
  have hd : ∀ x < 16, ∀ y < 16, hexDigit x = hexDigit y → x = y := by decide
  have h7 : ∀ x < 8, hexDigit x ≠ 102 := by decide
  split at h
  · split at h
    · injection h with h1 h2
      injection h2 with h2 _
      have := hd _ (by omega) _ (by omega) h1
      have := hd _ (by omega) _ (by omega) h2
      left; omega
    · injection h with h1 _
      exact absurd h1 (h7 _ (by omega))
  · split at h
    · injection h with h1 _
      exact absurd h1.symm (h7 _ (by omega))
    · right; omega

theorem flatMap_eq : ∀ (x y : Bytes), x.length = y.length → (∀ b ∈ x, b < 256) → (∀ b ∈ y, b < 256) →
    (x.flatMap hexByte = y.flatMap hexByte ↔ DifferHigh x y) := by
  intro x
  induction x with
  | nil =>
    intro y hl _ _
    cases y with
    | nil => exact ⟨fun _ => .nil, fun _ => rfl⟩
    | cons b y => simp at hl
  | cons a x ih =>
    intro y hl hx hy
    cases y with
    | nil => simp at hl
    | cons b y =>
      have ha := hx a (by simp)
      have hb := hy b (by simp)
      have ih' := ih y (by simpa using hl) (fun c hc => hx c (by simp [hc])) (fun c hc => hy c (by simp [hc]))
      rw [List.flatMap_cons, List.flatMap_cons]
      constructor
      · intro h
        have := List.append_inj h (by rw [hexByte_len a ha, hexByte_len b hb])
        have hd := ih'.1 this.2
        rcases hexByte_eq a ha b hb this.1 with e | ⟨h1, h2⟩
        · subst e; exact .same a x y hd
        · exact .high a b x y h1 h2 hd
      · intro h
        cases h with
        | same b x y hd => rw [ih'.2 hd]
        | high a b x y h1 h2 hd =>
          rw [ih'.2 hd, hexByte_table a ha, hexByte_table b hb, if_neg (by omega), if_neg (by omega)]

/-! ## Decimal -/

theorem countDigits_pow : ∀ (k f n : Nat), 10 ^ k ≤ n → n < 10 ^ (k + 1) → n ≤ f → Response.countDigits f n = k + 1 := by
  intro k
  induction k with
  | zero =>
    intro f n h1 h2 h3
    cases f with
    | zero => simp at h1; omega
    | succ f =>
      rw [Response.countDigits, if_neg (by simp at h1; omega)]
      have h0 : n / 10 = 0 := by simp at h2; omega
      rw [h0]
      cases f with
      | zero => rfl
      | succ f => rw [Response.countDigits, if_pos rfl]
  | succ k ih =>
    intro f n h1 h2 h3
    have hp : 0 < 10 ^ k := Nat.pow_pos (by omega)
    have e1 : 10 ^ (k + 1) = 10 * 10 ^ k := by rw [Nat.pow_succ]; omega
    have e2 : 10 ^ (k + 1 + 1) = 10 * 10 ^ (k + 1) := by rw [Nat.pow_succ]; omega
    cases f with
    | zero => omega
    | succ f =>
      rw [Response.countDigits, if_neg (by omega), ih f (n / 10) (by omega) (by omega) (by omega)]

theorem decimal_len (n : Nat) (h : 0 < n) : (Response.decimal n).length = Response.countDigits n n := by
  rw [← (Response.C53_digits_reserved_exact n).1, Response.numberDigits, if_neg (by omega)]

theorem decimal_len10 (n : Nat) (h1 : 1000000000 ≤ n) (h2 : n < 10000000000) : (Response.decimal n).length = 10 := by
  rw [decimal_len n (by omega), countDigits_pow 9 n n (by omega) (by omega) (Nat.le_refl _)]

theorem decimal_pos (n : Nat) : 0 < (Response.decimal n).length :=
  List.length_pos_iff.2 (Response.printLd_ne_nil (n + 1) n [] (by omega))

end Fly.Cache
