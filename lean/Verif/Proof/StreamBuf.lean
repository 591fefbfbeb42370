import Verif.Model.StreamBuf
import Verif.Proof.Stream
/-! `StreamBuf` turns any producing closure into a faithful stream. -/
namespace Nd

/-- How many filler bytes follow a stream of `t` bytes so that its length is a multiple of `a`. -/
def padLen (a t : Nat) : Nat := (t + a - 1) / a * a - t

theorem padLen_one (t : Nat) : padLen 1 t = 0 := by simp [padLen]

/-- `P t buf w p`: `f` produces the list `p` from state `t`, piece by piece, with at most `w` calls that
do not report the end (`buf` is what the buffer holds); after the end has been reported the captured
state satisfies `Q`. -/
def Produces (f : StreamBuf.Closure τ) (F : Err → Prop) (P : τ → Bytes → Nat → Bytes → Prop) (Q : τ → Prop) : Prop :=
  ∀ t w p req buf, P t buf w p →
    (∃ e, F e ∧ f t req buf = .error e) ∨
    ∃ eof c t' p', f t req buf = .ok (eof, buf ++ c, t') ∧ p = c ++ p' ∧
      (eof = true → p' = [] ∧ Q t') ∧ (eof = false → ∃ w' < w, P t' (buf ++ c) w' p')

namespace StreamBuf

theorem le_nextPow2 (n : Nat) : n ≤ nextPow2 n := by
  unfold nextPow2
  split
  · omega
  · have := @Nat.lt_log2_self (n - 1)
    omega

theorem lt_target (len : Nat) : len + 1 ≤ nextPow2 (len + (len + 1) / 2) := by
  rcases Nat.eq_zero_or_pos len with h | h
  · subst h; simp [nextPow2]
  · have := le_nextPow2 (len + (len + 1) / 2); omega

/-- `s` holds the unconsumed bytes `d` (followed by the margin `m`). -/
def View (s : StreamBuf) (d m : Bytes) : Prop :=
  ∃ pre, s.buf = pre ++ d ++ m ∧ pre.length = s.pos ∧ s.pos + d.length = s.len ∧ m.length = MARGIN

theorem View.length {s : StreamBuf} {d m} (h : View s d m) : s.length = d.length := by
  obtain ⟨pre, _, _, h, _⟩ := h; unfold StreamBuf.length; omega

theorem View.asSlice {s : StreamBuf} {d m} (h : View s d m) : s.asSlice = d ++ m := by
  obtain ⟨pre, h1, h2, _, _⟩ := h
  unfold StreamBuf.asSlice
  rw [h1, ← h2, List.append_assoc, List.drop_left]

theorem View.take {s : StreamBuf} {d m} (h : View s d m) : ∃ pre, s.buf.take s.len = pre ++ d ∧ pre.length = s.pos := by
  obtain ⟨pre, h1, h2, h3, _⟩ := h
  exact ⟨pre, by rw [h1, ← h3, ← h2, ← List.length_append, List.take_left], h2⟩

theorem View.new (B align filler) : View (newWithAlign B align filler) [] (List.replicate MARGIN 0) :=
  ⟨[], rfl, rfl, rfl, by simp⟩

theorem resize_self_add (b : Bytes) (k : Nat) (x : Byte) :
    resize b (b.length + k) x = b ++ List.replicate k x := by
  unfold resize
  rw [List.take_of_length_le (by omega)]
  congr 2; omega

theorem View.extend {s : StreamBuf} {d m} (h : View s d m) (x : Bytes) :
    View (s.extendFromSlice x) (d ++ x) (List.replicate MARGIN 10) := by
  obtain ⟨pre, h1, h2⟩ := h.take
  obtain ⟨_, _, _, h3, _⟩ := h
  refine ⟨pre, ?_, h2, ?_, by simp⟩
  · simp only [extendFromSlice, h1]
    have : s.len + x.length + MARGIN = (pre ++ d ++ x).length + MARGIN := by simp; omega
    rw [this, resize_self_add]; simp
  · simp [extendFromSlice]; omega

theorem le_round (t a : Nat) (ha : 0 < a) : t ≤ (t + a - 1) / a * a := by
  have h := Nat.div_add_mod (t + a - 1) a
  have h2 := Nat.mod_lt (t + a - 1) ha
  rw [Nat.mul_comm] at h
  omega

theorem markEof_buf (s : StreamBuf) (ha : 0 < s.align) :
    s.markEof.buf = s.buf ++ List.replicate (padLen s.align (s.offset + s.buf.length)) s.filler := by
  simp only [markEof]
  have h := le_round (s.offset + s.buf.length) s.align ha
  have : (s.offset + s.buf.length + s.align - 1) / s.align * s.align - s.offset
      = s.buf.length + padLen s.align (s.offset + s.buf.length) := by
    unfold padLen; omega
  rw [this, resize_self_add]

/-- `consume` removes exactly the consumed bytes, and makes the next fill extend the buffer. -/
theorem View.consume {s : StreamBuf} {d m} (h : View s d m) (B k : Nat) (hk : k ≤ d.length) :
    View (s.consume B k) (d.drop k) m ∧ (s.consume B k).isEof = s.isEof ∧
    (s.consume B k).align = s.align ∧ (s.consume B k).filler = s.filler ∧
    (s.consume B k).offset + (s.consume B k).len = s.offset + s.len ∧
    (s.isEof = false → (s.consume B k).len + 1 ≤ (s.consume B k).targetLen) := by
  obtain ⟨pre, hb, hp, hl, hm⟩ := h
  have hbl : s.buf.length = s.len + MARGIN := by rw [hb]; simp; omega
  have hmin : min (s.pos + k) s.buf.length = s.pos + k := by omega
  have v1 : ∀ tl, View { s with pos := s.pos + k, targetLen := tl } (d.drop k) m := by
    intro tl
    exact ⟨pre ++ d.take k, by simp [hb], by simp; omega, by simp; omega, hm⟩
  have v2 : ∀ tl, View (StreamBuf.mk (s.buf.drop (s.pos + k)) tl 0 (s.len - (s.pos + k))
      (s.offset + (s.pos + k)) s.align s.isEof s.filler) (d.drop k) m := by
    intro tl
    refine ⟨[], ?_, rfl, by simp; omega, hm⟩
    simp only [hb, List.nil_append]
    rw [← hp, List.append_assoc, ← List.drop_drop, List.drop_left, List.drop_append_of_le_length hk]
  unfold StreamBuf.consume
  simp only [hmin]
  by_cases he : s.isEof = true
  · rw [if_pos he]
    exact ⟨v1 s.targetLen, rfl, rfl, rfl, rfl, by simp [he]⟩
  · rw [if_neg he]
    by_cases hth : s.pos + k ≥ min (7 * s.buf.length / 8) (8 * B)
    · simp only [hth, if_true]
      split
      · exact ⟨v2 _, rfl, rfl, rfl, by simp only; omega, fun _ => lt_target _⟩
      · exact ⟨v2 _, rfl, rfl, rfl, by simp only; omega, fun _ => by simp only; omega⟩
    · simp only [hth, if_false]
      split
      · exact ⟨v1 _, rfl, rfl, rfl, rfl, fun _ => lt_target _⟩
      · exact ⟨v1 _, rfl, rfl, rfl, rfl, fun _ => by simp only; omega⟩

/-- The relation between a `StreamBuf` with its producer and the bytes it still has to deliver. -/
structure Rel (P : τ → Bytes → Nat → Bytes → Prop) (Q : τ → Prop) (s : StreamBuf) (t : τ) (ph : Phase) (w : Nat)
    (rem : Bytes) : Prop where
  align : 0 < s.align
  view : ∃ d m, View s d m ∧ (s.isEof = true → m = List.replicate MARGIN 10 ∧ rem = d ∧ Q t) ∧
    (s.isEof = false → ∃ p, P t (s.buf.take s.len) w p ∧
      rem = d ++ p ++ List.replicate (padLen s.align (s.offset + s.len + p.length)) s.filler)
  idle : ∀ lb, ph = .idle lb → lb ≤ max 1 (s.len - s.pos) ∧
    (s.isEof = false → s.pos + 1 ≤ max s.targetLen s.len)
  lent : ∀ n, ph = .lent n → n = s.len - s.pos ∧ (s.isEof = false → 1 ≤ n)

theorem fillLoop_spec {f : Closure τ} {F P Q} (hf : Produces f F P Q) (target : Nat) :
    ∀ (fuel : Nat) (s : StreamBuf) (t : τ) (w : Nat) (p : Bytes), P t s.buf w p → w < fuel → 0 < s.align →
      s.isEof = false →
      (∃ e, F e ∧ fillLoop f target fuel s t = .error e) ∨
      ∃ s' t' c, fillLoop f target fuel s t = .ok (s', t') ∧
        s'.pos = s.pos ∧ s'.offset = s.offset ∧ s'.align = s.align ∧ s'.filler = s.filler ∧
        s'.targetLen = s.targetLen ∧ s'.len = s.len ∧
        s'.buf = s.buf ++ c ∧
        (s'.isEof = true → Q t' ∧
          c = p ++ List.replicate (padLen s.align (s.offset + s.buf.length + p.length)) s.filler) ∧
        (s'.isEof = false → target ≤ s'.buf.length ∧ ∃ w' p', p = c ++ p' ∧ P t' s'.buf w' p' ∧ w' < w) := by
  intro fuel
  induction fuel with
  | zero => intro s t w p _ h; omega
  | succ fuel ih =>
    intro s t w p hP hw ha he
    unfold fillLoop
    rcases hf t w p (target - s.buf.length + 1) s.buf hP with ⟨e, hF, heq⟩ | ⟨eof, c, t', p', heq, hp, he1, he2⟩
    · left; exact ⟨e, hF, by simp [heq]⟩
    · simp only [heq]
      cases eof with
      | true =>
        right
        obtain ⟨hp', hQ⟩ := he1 rfl
        subst hp'
        refine ⟨_, _, c ++ List.replicate (padLen s.align (s.offset + (s.buf ++ c).length)) s.filler, rfl, rfl, rfl, rfl, rfl, rfl, rfl, ?_, ?_, ?_⟩
        · rw [markEof_buf _ (by simpa using ha)]; simp
        · intro _; simp at hp; subst hp; exact ⟨hQ, by simp [Nat.add_assoc]⟩
        · intro h; simp [markEof] at h
      | false =>
        simp only [Bool.false_eq_true, if_false]
        obtain ⟨w', hw', hP'⟩ := he2 rfl
        by_cases hlen : (s.buf ++ c).length ≥ target
        · rw [if_pos hlen]
          right
          refine ⟨_, _, c, rfl, rfl, rfl, rfl, rfl, rfl, rfl, rfl, ?_, ?_⟩
          · intro h; simp [he] at h
          · intro _; exact ⟨hlen, w', p', hp, hP', hw'⟩
        · rw [if_neg hlen]
          rcases ih { s with buf := s.buf ++ c } t' w' p' hP' (by omega) ha he with
            h | ⟨s'', t'', c', heq', h1, h2, h3, h4, h5, h6, h7, h8, h9⟩
          · left; exact h
          · right
            refine ⟨s'', t'', c ++ c', heq', h1, h2, h3, h4, h5, h6, ?_, ?_, ?_⟩
            · simp [h7]
            · intro h; exact ⟨(h8 h).1, by rw [(h8 h).2, hp]; simp [Nat.add_assoc]⟩
            · intro h
              obtain ⟨h10, w'', p'', h11, h12, h13⟩ := h9 h
              exact ⟨h10, w'', p'', by rw [hp, h11]; simp, h12, by omega⟩

/-- `fill_buf` keeps the relation and lends a prefix. -/
theorem fillBuf_spec {f : Closure τ} {F P Q} (hf : Produces f F P Q) {fuel : Nat} {s : StreamBuf} {t : τ}
    {ph : Phase} {w : Nat} {rem : Bytes} (h : Rel P Q s t ph w rem) (hw : w < fuel) (req : Nat) :
    (∃ e, F e ∧ fillBuf fuel f s t req = .error e) ∨
    ∃ eof n w' s' t', fillBuf fuel f s t req = .ok ((eof, n), s', t') ∧ Rel P Q s' t' (.lent n) w' rem ∧
      n ≤ rem.length ∧ s'.asSlice = rem.take n ++ List.replicate MARGIN 10 ∧
      (eof = true → n = rem.length) ∧ (eof = false → 1 ≤ n ∧ ph.lb ≤ n) ∧
      w' ≤ w ∧ (eof = false → w' < w) ∧
      eof = s'.isEof ∧ s'.align = s.align ∧ s'.filler = s.filler ∧ s'.pos = s.pos := by
  obtain ⟨ha, ⟨d, m, hv, heof, hneof⟩, hidle, hlent⟩ := h
  cases he : s.isEof with
  | true =>
    right
    obtain ⟨hm, hr, hQ⟩ := heof he
    obtain ⟨pre, _, _, hdl, _⟩ := id hv
    refine ⟨true, s.len - s.pos, w, s, t, by simp [fillBuf, he], ⟨ha, ⟨d, m, hv, heof, hneof⟩, by simp, by simp [he]⟩, ?_, ?_, ?_, by simp, Nat.le_refl _, by simp, by simp [he], rfl, rfl, rfl⟩
    · rw [hr]; omega
    · rw [hr, hv.asSlice, hm, List.take_of_length_le (by omega)]
    · intro _; rw [hr]; omega
  | false =>
    obtain ⟨p, hP, hrem⟩ := hneof he
    obtain ⟨pre, htake, hpre⟩ := hv.take
    obtain ⟨_, _, _, hdl, _⟩ := hv
    rcases fillLoop_spec hf (max s.targetLen req) fuel { s with buf := s.buf.take s.len } t w p hP hw ha he with
      ⟨e, hF, heq⟩ | ⟨s', t', c, heq, h1, h2, h3, h4, h5, h6, h7, h8, h9⟩
    · left; exact ⟨e, hF, by unfold fillBuf; rw [if_neg (by simp [he])]; simp [heq]⟩
    · right
      simp only [htake] at h1 h2 h3 h4 h5 h6 h7 h8 h9 heq
      have hlen : (pre ++ d).length = s.len := by simp; omega
      rw [hlen] at h8
      obtain ⟨w', hw1, hw2, hex⟩ : ∃ w', w' ≤ w ∧ (s'.isEof = false → w' < w) ∧
          (s'.isEof = false → ∃ p', p = c ++ p' ∧ P t' s'.buf w' p') := by
        cases hs : s'.isEof with
        | true => exact ⟨w, Nat.le_refl _, by simp, by simp⟩
        | false =>
          obtain ⟨_, w', p', hp, hP', hw'⟩ := h9 hs
          exact ⟨w', by omega, fun _ => hw', fun _ => ⟨p', hp, hP'⟩⟩
      have hbl : s'.buf.length = s.pos + (d ++ c).length := by rw [h7]; simp; omega
      have hn : s'.buf.length - s'.pos = (d ++ c).length := by omega
      have hv' : View { s' with len := s'.buf.length, buf := resize s'.buf (s'.buf.length + MARGIN) 10 } (d ++ c) (List.replicate MARGIN 10) := by
        refine ⟨pre, ?_, by simp only; omega, by simp only; omega, by simp⟩
        simp only; rw [resize_self_add, h7]; simp
      have hpref : (s'.isEof = true → rem = d ++ c) ∧ (s'.isEof = false → ∃ x, rem = d ++ c ++ x) := by
        constructor
        · intro h; rw [hrem, (h8 h).2]; simp
        · intro h; obtain ⟨p', hp, _⟩ := hex h; exact ⟨_, by rw [hrem, hp]; simp only [List.append_assoc]; rfl⟩
      have hrt : rem.take (d ++ c).length = d ++ c := by
        cases hs : s'.isEof with
        | true => rw [hpref.1 hs, List.take_length]
        | false => obtain ⟨x, hx⟩ := hpref.2 hs; rw [hx, List.take_left]
      have hge : s'.isEof = false → 1 ≤ (d ++ c).length ∧ ph.lb ≤ (d ++ c).length := by
        intro hs
        obtain ⟨h10, _⟩ := h9 hs
        simp only [List.length_append] at hbl ⊢
        cases ph with
        | idle lb => obtain ⟨_, h11⟩ := hidle lb rfl; have := h11 he; simp only [Phase.lb]; omega
        | lent n => obtain ⟨_, h11⟩ := hlent n rfl; have := h11 he; simp only [Phase.lb]; omega
      refine ⟨s'.isEof, s'.buf.length - s'.pos, w', { s' with len := s'.buf.length, buf := resize s'.buf (s'.buf.length + MARGIN) 10 }, t', ?_, ?_, ?_, ?_, ?_, ?_, hw1, hw2, rfl, h3, h4, h1⟩
      · unfold fillBuf; rw [if_neg (by simp [he])]; simp [htake, heq]
      · refine ⟨by simp only [h3]; exact ha, ⟨_, _, hv', ?_, ?_⟩, by simp, ?_⟩
        · intro h; exact ⟨rfl, hpref.1 h, (h8 h).1⟩
        · intro h
          simp only at h ⊢
          obtain ⟨p', hp, hP'⟩ := hex h
          refine ⟨p', by rw [resize_self_add, List.take_left]; exact hP', ?_⟩
          rw [hrem, h2, h3, h4, h7, hp]
          simp only [List.length_append] at hlen ⊢
          rw [← hlen]
          simp [Nat.add_assoc]
        · intro n h; cases h
          exact ⟨rfl, fun h => by rw [hn]; exact (hge h).1⟩
      · rw [hn]
        have := congrArg List.length hrt
        rw [List.length_take] at this; omega
      · rw [hv'.asSlice, hn, hrt]
      · intro hs; rw [hn, hpref.1 hs]
      · intro hs; rw [hn]; exact hge hs

/-- `consume` keeps the relation. -/
theorem consume_spec {P : τ → Bytes → Nat → Bytes → Prop} {Q} {s : StreamBuf} {t : τ} {ph : Phase} {w : Nat}
    {rem : Bytes} (hst : ∀ t b b' w p, P t b w p → P t b' w p) (B : Nat) (h : Rel P Q s t ph w rem) (k : Nat) (hk : k ≤ s.len - s.pos) :
    Rel P Q (s.consume B k) t (Phase.afterConsume (s.len - s.pos) k) w (rem.drop k) := by
  obtain ⟨ha, ⟨d, m, hv, heof, hneof⟩, _, _⟩ := h
  have hdl := hv.length
  unfold StreamBuf.length at hdl
  obtain ⟨h1, h2, h3, h4, h5, h6⟩ := hv.consume B k (by omega)
  have hdl' := h1.length
  unfold StreamBuf.length at hdl'
  simp only [List.length_drop] at hdl'
  refine ⟨by rw [h3]; exact ha, ⟨_, _, h1, ?_, ?_⟩, ?_, by simp [Phase.afterConsume]⟩
  · rw [h2]; intro h; obtain ⟨g1, g2, g3⟩ := heof h; exact ⟨g1, by rw [g2], g3⟩
  · rw [h2]; intro h
    obtain ⟨p, hP, hr⟩ := hneof h
    exact ⟨p, hst _ _ _ _ _ hP, by rw [hr, h3, h4, h5, List.append_assoc, List.drop_append_of_le_length (by omega), List.append_assoc]⟩
  · intro lb hlb
    simp only [Phase.afterConsume, Phase.idle.injEq] at hlb
    constructor
    · split at hlb <;> omega
    · rw [h2]; intro h; have := h6 h
      obtain ⟨_, _, _, g, _⟩ := h1
      omega

theorem nudge_spec {P : τ → Bytes → Nat → Bytes → Prop} {Q} {s : StreamBuf} {t : τ} {lb w : Nat} {rem : Bytes}
    (hst : ∀ t b b' w p, P t b w p → P t b' w p) (B : Nat) (h : Rel P Q s t (.idle lb) w rem) : Rel P Q (s.consume B 0) t (.idle lb) w rem := by
  have hlb := (h.idle lb rfl).1
  have h1 := consume_spec hst B h 0 (by omega)
  obtain ⟨ha, hv, hi, hl⟩ := h1
  refine ⟨ha, by simpa using hv, ?_, by simp⟩
  intro lb' heq; cases heq
  have := hi _ rfl
  simp only [if_true] at this
  exact ⟨by omega, this.2⟩

/-- The content of a fresh `StreamBuf` over a producer of `p`: `p` padded to the alignment. -/
theorem rel_new {P : τ → Bytes → Nat → Bytes → Prop} {Q} {B : Nat} {align : Nat} {filler : Byte} {t : τ} {w : Nat}
    {p : Bytes} (hB : 0 < B) (ha : 0 < align) (hP : P t [] w p) :
    Rel P Q (newWithAlign B align filler) t (.idle 1) w (p ++ List.replicate (padLen align p.length) filler) := by
  refine ⟨ha, ⟨_, _, View.new B align filler, by simp [newWithAlign], ?_⟩, ?_, by simp⟩
  · intro _; exact ⟨p, by simpa [newWithAlign] using hP, by simp [newWithAlign]⟩
  · intro lb h; cases h; simp [newWithAlign]; omega

end StreamBuf

/-- A `StreamBuf` over a producing closure follows the protocol. -/
theorem buffered_faithful {f : StreamBuf.Closure τ} {F} {P : τ → Nat → Bytes → Prop} {Q}
    (hf : Produces f F (fun t _ => P t) Q) (B fuel : Nat) :
    Faithful (bufferedSrc B fuel f) F NlMargin
      (fun s ph w rem => StreamBuf.Rel (fun t _ => P t) Q s.buf s.inner ph w rem ∧ w < fuel) where
  fill s ph w rem req := by
    rintro ⟨h, hw⟩
    rcases StreamBuf.fillBuf_spec hf h hw req with ⟨e, he, heq⟩ | ⟨eof, n, w', s', t', heq, h1, h2, h3, h4, h5, h6, h7, _⟩
    · exact Or.inl ⟨e, he, by simp [bufferedSrc, heq]⟩
    · exact Or.inr ⟨eof, n, w', ⟨t', s'⟩, by simp [bufferedSrc, heq], ⟨h1, by omega⟩, h2, fun _ => ⟨_, rfl, h3⟩, h4, h5, h6, fun h _ => h7 h⟩
  consume s n w rem k := by
    rintro ⟨h, hw⟩ hk
    have := (h.lent n rfl).1
    subst this
    exact ⟨_, w, rfl, ⟨StreamBuf.consume_spec (fun _ _ _ _ _ h => h) B h k hk, hw⟩, Nat.le_refl _⟩
  nudge s lb w rem := by
    rintro ⟨h, hw⟩
    exact ⟨_, w, rfl, ⟨StreamBuf.nudge_spec (fun _ _ _ _ _ h => h) B h, hw⟩, Nat.le_refl _⟩

theorem buffered_delivers {f : StreamBuf.Closure τ} {F} {P : τ → Nat → Bytes → Prop} {Q}
    (hf : Produces f F (fun t _ => P t) Q) {B fuel align : Nat} {filler : Byte}
    {t : τ} {w : Nat} {p : Bytes} (hB : 0 < B) (ha : 0 < align) (hP : P t w p) (hw : w < fuel) :
    Delivers (bufferedSrc B fuel f) F NlMargin ⟨t, StreamBuf.newWithAlign B align filler⟩ w
      (p ++ List.replicate (padLen align p.length) filler) :=
  ⟨_, buffered_faithful hf B fuel, StreamBuf.rel_new hB ha hP, hw⟩

theorem buffered_delivers' {f : StreamBuf.Closure τ} {F} {P : τ → Nat → Bytes → Prop} {Q}
    (hf : Produces f F (fun t _ => P t) Q) {B fuel : Nat}
    {t : τ} {w : Nat} {p : Bytes} (hB : 0 < B) (hP : P t w p) (hw : w < fuel) :
    Delivers (bufferedSrc B fuel f) F NlMargin ⟨t, StreamBuf.new B⟩ w p := by
  have := buffered_delivers hf (align := 1) (filler := 0) hB (by omega) hP hw
  simpa [padLen_one, StreamBuf.new] using this

/-- Reading from a file: errors only if the operating system reports one. -/
theorem raw_produces (B : Nat) (hB : 0 < B) (sched : Nat → Option Nat) :
    Produces (RawStream.feed B) (fun e => e = .io ∧ ∃ i, sched i = none)
      (fun r _ w p => r.sched = sched ∧ r.data = p ∧ p.length ≤ w) (fun _ => True) := by
  rintro r w p req buf ⟨hs, rfl, hw⟩
  unfold RawStream.feed Reader.read
  cases h : r.sched r.calls with
  | none => left; exact ⟨.io, ⟨rfl, r.calls, by rw [← hs]; exact h⟩, rfl⟩
  | some k =>
    right
    refine ⟨_, _, _, _, rfl, (List.take_append_drop (min (max 1 k) B) r.data).symm, ?_, ?_⟩
    · intro h; simp at h
      rcases h with h | h
      · omega
      · simp [h]
    · intro h; simp at h
      have : 0 < r.data.length := by cases hd : r.data with
        | nil => exact absurd hd h.2
        | cons => simp
      exact ⟨(r.data.drop (min (max 1 k) B)).length, by simp; omega, hs, rfl, Nat.le_refl _⟩

end Nd
