import Verif.Model.FuseAffine
import Verif.Props.Reference
import Verif.Proof.Index
import Mathlib.Tactic.Ring
import Mathlib.Tactic.FieldSimp

/-! C29: fusing Add, Sub, Mul and Div into BConv2D. -/

namespace Verif

theorem bdim_self (c : Nat) : bdim c c = some c := by simp [bdim]

theorem bdim_eq {x y d : Nat} (h : bdim x y = some d) : (y = d ∨ y = 1) ∧ (x = d ∨ x = 1) := by
  unfold bdim at h
  split at h
  · simp only [Option.some.injEq] at h; omega
  · split at h
    · simp only [Option.some.injEq] at h; omega
    · split at h
      · simp only [Option.some.injEq] at h; omega
      · simp at h

/-- The result of a broadcast is one-dimensional only if both operands are at most that. -/
theorem bshapeR_one {a b : List Nat} {c : Nat} (h : bshapeR a b = some [c]) :
    (a = [] ∧ b = [c]) ∨ (b = [] ∧ a = [c]) ∨ ∃ x y, a = [x] ∧ b = [y] ∧ bdim x y = some c := by
  match a, b with
  | [], b => left; simpa [bshapeR] using h
  | x :: a, [] => right; left; simpa [bshapeR] using h
  | x :: a, y :: b =>
    right; right
    simp only [bshapeR, Option.bind_eq_some_iff, Option.map_eq_some_iff, List.cons.injEq] at h
    obtain ⟨d, hd, r, hr, rfl, rfl⟩ := h
    match a, b with
    | [], [] => exact ⟨x, y, rfl, rfl, hd⟩
    | [], _ :: _ => simp [bshapeR] at hr
    | _ :: _, [] => simp [bshapeR] at hr
    | _ :: _, _ :: _ =>
      simp only [bshapeR, Option.bind_eq_some_iff, Option.map_eq_some_iff] at hr
      obtain ⟨_, _, _, _, hh⟩ := hr
      exact absurd hh (by simp)

theorem reverse_one {s : List Nat} {c : Nat} : s.reverse = [c] ↔ s = [c] := by
  rw [← List.reverse_inj, List.reverse_reverse]; rfl

/-- The shapes a broadcast to `[c]` can start from. -/
theorem broadcast_one {f : Rat → Rat → Rat} {a b : Tens} {c : Nat} {d : List Rat}
    (h : broadcastOp f a b = some ⟨[c], d⟩) :
    bshapeR a.shape.reverse b.shape.reverse = some [c] := by
  unfold broadcastOp broadcastG at h
  simp only [Option.map_eq_some_iff, TensOf.mk.injEq] at h
  obtain ⟨rs, h1, h2, _⟩ := h
  rw [reverse_one.1 h2] at h1
  exact h1

theorem broadcast_shape {f : Rat → Rat → Rat} {a b r : Tens} (h : broadcastOp f a b = some r) :
    bshapeR a.shape.reverse b.shape.reverse = some r.shape.reverse := by
  unfold broadcastOp broadcastG at h
  simp only [Option.map_eq_some_iff] at h
  obtain ⟨rs, h1, rfl⟩ := h
  simpa using h1

/-- The constant `v` holds, for `c` channels, one value per channel, or a single value. -/
def PerChannel (c : Nat) (v : Tens) : Prop := v.shape = [] ∨ v.shape = [1] ∨ v.shape = [c]

/-- Its value for channel `i`. -/
def chanVal (c : Nat) (v : Tens) (i : Nat) : Rat := v.data.getD (if v.shape = [c] ∧ c ≠ 1 then i else 0) 0

theorem bidxR_self : ∀ (rs : List Nat) (n : Nat), n < rs.prod → bidxR rs rs n = n
  | [], n, h => by simp only [List.prod_nil] at h; simp only [bidxR]; omega
  | r :: rs, n, h => by
    have hr : 0 < r := Nat.pos_of_ne_zero (by rintro rfl; simp at h)
    rw [List.prod_cons] at h
    have h1 : n / r < rs.prod := (Nat.div_lt_iff_lt_mul hr).2 (by rw [Nat.mul_comm]; exact h)
    simp only [bidxR, bidxR_self rs _ h1]
    have := Nat.mod_add_div n r
    split
    · rename_i hr1; subst hr1; simp at this ⊢
    · exact this

theorem bidxR_chan {c : Nat} {v : Tens} (hv : PerChannel c v) (rs : List Nat) (n : Nat) :
    v.data.getD (bidxR (c :: rs) v.shape.reverse n) 0 = chanVal c v (n % c) := by
  have h0 : ∀ m, bidxR rs [] m = 0 := by intro m; cases rs <;> rfl
  unfold chanVal
  rcases hv with h | h | h
  · rw [h]; simp [bidxR]
  · rw [h]
    by_cases hc : c = 1
    · subst hc; simp [bidxR, h0]
    · have : (1 = c) = False := by simp; omega
      simp [bidxR, h0, this]
  · rw [h]
    by_cases hc : c = 1
    · subst hc; simp [bidxR, h0]
    · simp [bidxR, h0, hc]

theorem bshapeR_chan {c : Nat} {v : Tens} (hv : PerChannel c v) (rs : List Nat) :
    bshapeR (c :: rs) v.shape.reverse = some (c :: rs) := by
  have h0 : bshapeR rs [] = some rs := by cases rs <;> rfl
  rcases hv with h | h | h
  · rw [h]; rfl
  · rw [h]
    have : bdim c 1 = some c := by
      by_cases hc : c = 1 <;> simp [bdim, hc]
    simp [bshapeR, this, h0]
  · rw [h]; simp [bshapeR, bdim_self, h0]

/-- Broadcasting a per-channel constant against a tensor whose last dimension is the channel. -/
theorem broadcast_chan {f : Rat → Rat → Rat} {c : Nat} {v : Tens} (hv : PerChannel c v) {t : Tens} {rs : List Nat}
    (ht : t.shape.reverse = c :: rs) :
    broadcastOp f t v = some ⟨t.shape, (List.range (c :: rs).prod).map fun n => f (t.data.getD n 0) (chanVal c v (n % c))⟩ := by
  unfold broadcastOp broadcastG
  rw [ht, bshapeR_chan hv]
  simp only [Option.map_some, Option.some.injEq, TensOf.mk.injEq]
  refine ⟨by rw [← ht, List.reverse_reverse], ?_⟩
  apply List.map_congr_left
  intro n hn
  rw [bidxR_self _ _ (List.mem_range.1 hn), bidxR_chan hv]

theorem perChannel_of {f : Rat → Rat → Rat} {c : Nat} {b d : List Rat} {v : Tens}
    (h : broadcastOp f ⟨[c], b⟩ v = some ⟨[c], d⟩) : PerChannel c v := by
  have := broadcast_one h
  simp only [List.reverse_cons, List.reverse_nil, List.nil_append] at this
  rcases bshapeR_one this with ⟨h1, _⟩ | ⟨h1, _⟩ | ⟨x, y, h1, h2, h3⟩
  · simp at h1
  · left; simpa using h1
  · rw [reverse_one] at h2
    rcases (bdim_eq h3).1 with h | h
    · right; right; rw [h2, h]
    · right; left; rw [h2, h]

/-- A chain of fusions that ends in a bias of shape `[c]` had a bias of shape `[c]`, `[1]` or `[]` at every
step, and the same for the multiplier. -/
theorem fuseChain_back : ∀ (l : List (BinOp × Tens)) {mb mb' : Tens × Tens} {c : Nat},
    fuseChain l mb = some mb' → mb'.2.shape = [c] → mb.2.shape = [] ∨ mb.2.shape = [1] ∨ mb.2.shape = [c]
  | [], mb, mb', c, h, hc => by
    simp only [fuseChain, Option.some.injEq] at h; subst h; exact Or.inr (Or.inr hc)
  | (op, v) :: l, mb, mb', c, h, hc => by
    simp only [fuseChain, Option.bind_eq_some_iff] at h
    obtain ⟨mb1, h1, h2⟩ := h
    have ih := fuseChain_back l h2 hc
    have hb : ∃ f, broadcastOp f mb.2 v = some mb1.2 := by
      cases op <;> simp only [fuseAffine, Option.map_eq_some_iff, Option.bind_eq_some_iff] at h1
      · obtain ⟨b, hb, rfl⟩ := h1; exact ⟨_, hb⟩
      · obtain ⟨b, hb, rfl⟩ := h1; exact ⟨_, hb⟩
      · obtain ⟨_, _, b, hb, rfl⟩ := h1; exact ⟨_, hb⟩
      · obtain ⟨_, _, b, hb, rfl⟩ := h1; exact ⟨_, hb⟩
    obtain ⟨f, hb⟩ := hb
    have hs := broadcast_shape hb
    rcases ih with h | h | h
    · rw [h] at hs
      left
      match hm : mb.2.shape.reverse, hv : v.shape.reverse with
      | [], _ => simpa using hm
      | _ :: _, [] => rw [hm, hv] at hs; simp [bshapeR] at hs
      | _ :: _, _ :: _ =>
        rw [hm, hv] at hs
        simp [bshapeR, Option.bind_eq_some_iff] at hs
    · rw [h] at hs
      simp only [List.reverse_cons, List.reverse_nil, List.nil_append] at hs
      rcases bshapeR_one hs with ⟨h1, _⟩ | ⟨_, h1⟩ | ⟨x, y, h1, _, h3⟩
      · left; simpa using h1
      · right; left; exact reverse_one.1 h1
      · right; left
        rw [reverse_one] at h1
        rcases (bdim_eq h3).2 with h | h <;> rw [h1, h]
    · rw [h] at hs
      simp only [List.reverse_cons, List.reverse_nil, List.nil_append] at hs
      rcases bshapeR_one hs with ⟨h1, _⟩ | ⟨_, h1⟩ | ⟨x, y, h1, _, h3⟩
      · left; simpa using h1
      · right; right; exact reverse_one.1 h1
      · rw [reverse_one] at h1
        rcases (bdim_eq h3).2 with h | h
        · right; right; rw [h1, h]
        · right; left; rw [h1, h]

/-- Elements of a mapped range. -/
theorem getElem?_map_range {g : Nat → Rat} {n i : Nat} (h : i < n) : ((List.range n).map g)[i]? = some (g i) := by
  simp [h]

theorem prod4 (n h w c : Nat) : [c, w, h, n].prod = n * h * w * c := by
  simp only [List.prod_cons, List.prod_nil]; ring

/-- The effect of a chain on the constants, channel by channel, and on a tensor, element by element. -/
theorem chain_step {op : BinOp} {v : Tens} {c : Nat} {m b : List Rat} (hm : m.length = c) (_ : b.length = c)
    (hv : PerChannel c v) :
    ∃ m' b', fuseAffine op v (⟨[c], m⟩, ⟨[c], b⟩) = some (⟨[c], m'⟩, ⟨[c], b'⟩) ∧ m'.length = c ∧ b'.length = c ∧
      ∀ i, i < c → ∀ z : Rat,
        op.fn (z * m.getD i 0 + b.getD i 0) (chanVal c v i) = z * m'.getD i 0 + b'.getD i 0 := by
  have key : ∀ (f : Rat → Rat → Rat) (d : List Rat), broadcastOp f ⟨[c], d⟩ v =
      some ⟨[c], (List.range c).map fun n => f (d.getD n 0) (chanVal c v n)⟩ := by
    intro f d
    rw [broadcast_chan hv (rs := []) (t := ⟨[c], d⟩) rfl]
    simp only [Option.some.injEq, TensOf.mk.injEq, true_and, List.prod_cons, List.prod_nil, mul_one]
    apply List.map_congr_left
    intro n hn
    rw [Nat.mod_eq_of_lt (List.mem_range.1 hn)]
  have el : ∀ (g : Nat → Rat) i, i < c → ((List.range c).map g).getD i 0 = g i := by
    intro g i hi; simp [hi]
  cases op
  · refine ⟨m, _, by simp only [fuseAffine, key]; rfl, hm, by simp, fun i hi z => ?_⟩
    rw [el _ i hi]; simp only [BinOp.fn]; ring
  · refine ⟨m, _, by simp only [fuseAffine, key]; rfl, hm, by simp, fun i hi z => ?_⟩
    rw [el _ i hi]; simp only [BinOp.fn]; ring
  · refine ⟨_, _, by simp only [fuseAffine, key]; rfl, by simp, by simp, fun i hi z => ?_⟩
    rw [el _ i hi, el _ i hi]; simp only [BinOp.fn]; ring
  · refine ⟨_, _, by simp only [fuseAffine, key]; rfl, by simp, by simp, fun i hi z => ?_⟩
    rw [el _ i hi, el _ i hi]; simp only [BinOp.fn]; ring

/-- The graph after fusing a chain gives what the graph before gives, for tensors given element by element. -/
theorem chain_run {n h w c : Nat} : ∀ (l : List (BinOp × Tens)) {m b m' b' : List Rat},
    m.length = c → b.length = c → m'.length = c → b'.length = c →
    fuseChain l (⟨[c], m⟩, ⟨[c], b⟩) = some (⟨[c], m'⟩, ⟨[c], b'⟩) → ∀ z : Nat → Rat,
    runChain l ⟨[n, h, w, c], (List.range (n * h * w * c)).map fun i => z i * m.getD (i % c) 0 + b.getD (i % c) 0⟩ =
      some ⟨[n, h, w, c], (List.range (n * h * w * c)).map fun i => z i * m'.getD (i % c) 0 + b'.getD (i % c) 0⟩
  | [], m, b, m', b', _, _, _, _, h, z => by
    simp only [fuseChain, Option.some.injEq, Prod.mk.injEq, TensOf.mk.injEq, true_and] at h
    obtain ⟨rfl, rfl⟩ := h
    rfl
  | (op, v) :: l, m, b, m', b', hm, hb, hm', hb', hf, z => by
    simp only [fuseChain, Option.bind_eq_some_iff] at hf
    obtain ⟨mb1, h1, h2⟩ := hf
    have hb1 : ∃ f, broadcastOp f ⟨[c], b⟩ v = some mb1.2 := by
      cases op <;> simp only [fuseAffine, Option.map_eq_some_iff, Option.bind_eq_some_iff] at h1
      · obtain ⟨b, hb, rfl⟩ := h1; exact ⟨_, hb⟩
      · obtain ⟨b, hb, rfl⟩ := h1; exact ⟨_, hb⟩
      · obtain ⟨_, _, b, hb, rfl⟩ := h1; exact ⟨_, hb⟩
      · obtain ⟨_, _, b, hb, rfl⟩ := h1; exact ⟨_, hb⟩
    obtain ⟨f, hb1⟩ := hb1
    have hv : PerChannel c v := by
      have hs := broadcast_shape hb1
      have hcase : mb1.2.shape = [c] := by
        rcases fuseChain_back l h2 rfl with hh | hh | hh
        · rw [hh] at hs
          match hv : v.shape.reverse with
          | [] => rw [hv] at hs; simp [bshapeR] at hs
          | _ :: _ => rw [hv] at hs; simp [bshapeR, Option.bind_eq_some_iff] at hs
        · rw [hh] at hs
          simp only [List.reverse_cons, List.reverse_nil, List.nil_append] at hs
          rcases bshapeR_one hs with ⟨h3, _⟩ | ⟨_, h3⟩ | ⟨x, y, h3, _, h4⟩
          · simp at h3
          · rw [hh]; exact h3.symm
          · simp only [List.cons.injEq, and_true] at h3
            have := (bdim_eq h4).2
            rw [hh, h3]; congr 1; omega
        · exact hh
      have e : mb1.2 = ⟨[c], mb1.2.data⟩ := by rw [← hcase]
      rw [e] at hb1
      exact perChannel_of hb1
    obtain ⟨m1, b1, s1, s2, s3, s4⟩ := chain_step (op := op) hm hb hv
    rw [s1] at h1
    simp only [Option.some.injEq] at h1
    subst h1
    simp only [runChain]
    rw [broadcast_chan hv (c := c) (rs := [w, h, n]) rfl]
    simp only [Option.bind_some, prod4]
    have e : (List.range (n * h * w * c)).map (fun i => op.fn
        (((List.range (n * h * w * c)).map fun i => z i * m.getD (i % c) 0 + b.getD (i % c) 0).getD i 0)
        (chanVal c v (i % c))) =
        (List.range (n * h * w * c)).map fun i => z i * m1.getD (i % c) 0 + b1.getD (i % c) 0 := by
      apply List.map_congr_left
      intro i hi
      have hi' := List.mem_range.1 hi
      have hc := (mod_lt_of_lt_mul hi').2
      rw [List.getD_eq_getElem?_getD, getElem?_map_range hi', Option.getD_some]
      exact s4 _ hc _
    rw [e]
    exact chain_run l s2 s3 hm' hb' h2 z

/-- **C29.** Let a chain of Add, Sub, Mul and Div operators with constant right operands follow a BConv2D with
float output. Whenever the rewrites fuse the whole chain and the fused multiplier and bias have the one shape the
runtime accepts (one-dimensional, one element per output channel), the fused BConv2D computes exactly what the
original BConv2D followed by the chain computed, for every fused activation, padding, input and filter; in exact
arithmetic (where Lean's `x / 0 = 0`, so that read Div with a zero divisor as excluded). -/
theorem C29_fuse_affine {p : BConv} {inp filt : List Word} {act : Act} {mult bias mult' bias' out0 : List Rat}
    (hok : p.Ok inp filt) (heven : p.padding = .same → p.padValue = 0 → p.cin % 2 = 0)
    (hm : mult.length = p.cout) (hb : bias.length = p.cout)
    (hm' : mult'.length = p.cout) (hb' : bias'.length = p.cout)
    (hK : 2 * (p.filtH * p.filtW * (p.cin / p.groups)) < 2147483648)
    (hout : out0.length = p.batches * p.outH * p.outW * p.cout) (chain : List (BinOp × Tens))
    (hf : fuseChain chain (⟨[p.cout], mult⟩, ⟨[p.cout], bias⟩) = some (⟨[p.cout], mult'⟩, ⟨[p.cout], bias'⟩)) :
    ∃ out out', evalRefFloat p act mult bias inp filt out0 = some out ∧
      evalRefFloat p act mult' bias' inp filt out0 = some out' ∧
      runChain chain ⟨[p.batches, p.outH, p.outW, p.cout], out⟩ = some ⟨[p.batches, p.outH, p.outW, p.cout], out'⟩ := by
  have heven' : p.zeroPadding = true → p.cinG % 2 = 0 := by
    intro hz
    unfold BConv.zeroPadding at hz
    simp only [Bool.and_eq_true, decide_eq_true_eq] at hz
    exact cinG_even hok (heven hz.1 hz.2)
  obtain ⟨out, h1, h2, h3⟩ := evalRefFloat_eq (act := act) hok heven' hm hb hK hout
  obtain ⟨out', h1', h2', h3'⟩ := evalRefFloat_eq (act := act) hok heven' hm' hb' hK hout
  refine ⟨out, out', h1, h1', ?_⟩
  have key : ∀ {o m b : List Rat}, o.length = out0.length →
      (∀ bb y x c, bb < p.batches → y < p.outH → x < p.outW → c < p.cout →
        o[((bb * p.outH + y) * p.outW + x) * p.cout + c]?
          = some ((act.apply (p.conv p.padVal inp filt bb y x c) : Int) * m.getD c 0 + b.getD c 0)) →
      o = (List.range (p.batches * p.outH * p.outW * p.cout)).map fun i =>
        ((act.apply (p.conv p.padVal inp filt (dB p.outH p.outW p.cout i) (dY p.outH p.outW p.cout i)
          (dX p.outW p.cout i) (i % p.cout)) : Int) : Rat) * m.getD (i % p.cout) 0 + b.getD (i % p.cout) 0 := by
    intro o m b hl he
    apply List.ext_getElem?
    intro i
    by_cases hi : i < p.batches * p.outH * p.outW * p.cout
    · rw [getElem?_map_range hi]
      obtain ⟨d1, d2, d3, d4⟩ := decode_lt hi
      have := he _ _ _ _ d1 d2 d3 d4
      have enc := offset4_encode p.outH p.outW p.cout i
      unfold offset4 at enc
      rw [enc] at this
      exact this
    · rw [List.getElem?_eq_none (by omega), List.getElem?_eq_none (by simp; omega)]
  rw [key h2 h3, key h2' h3']
  exact chain_run chain hm hb hm' hb' hf _

/-- Non-vacuity: `(x * 3 - 1/2) / [2, 4] + [1, 2]` fused into multiplier `[1, -2]` and bias `[0, 5]`. -/
example : fuseChain [(.mul, ⟨[], [3]⟩), (.sub, ⟨[1], [1/2]⟩), (.div, ⟨[2], [2, 4]⟩), (.add, ⟨[2], [1, 2]⟩)]
    (⟨[2], [1, -2]⟩, ⟨[2], [0, 5]⟩) = some (⟨[2], [3/2, -3/2]⟩, ⟨[2], [3/4, 45/8]⟩) := by
  decide +kernel

/-- A constant of shape `[1, 1, 1, c]` is fused as well, into a bias that the runtime rejects (C21: the bias must
be one-dimensional), although adding it to the output is the same per-channel addition. -/
theorem C29_rank4_witness :
    ∃ d, fuseAffine .add ⟨[1, 1, 1, 2], [1, 2]⟩ (⟨[2], [1, 1]⟩, ⟨[2], [0, 0]⟩) =
        some (⟨[2], [1, 1]⟩, ⟨[1, 1, 1, 2], d⟩) ∧
      broadcastOp (· + ·) ⟨[1, 1, 1, 2], [5, 6]⟩ ⟨[1, 1, 1, 2], [1, 2]⟩ = some ⟨[1, 1, 1, 2], [6, 8]⟩ :=
  ⟨[1, 2], by decide +kernel, by decide +kernel⟩

end Verif
