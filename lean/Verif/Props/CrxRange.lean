import Verif.Model.CrxImage
import Verif.Proofs.Base

/-! # C51: size and range of decoded CR3 images -/

namespace Verif.Props
open Verif Verif.Crx

theorem bind_inv {α β : Type} (x : R α) (f : α → R β) (y : β) (h : (x >>= f) = .ok y) : ∃ a, x = .ok a ∧ f a = .ok y := by
  cases x with
  | error e => cases h
  | ok a => exact ⟨a, rfl, h⟩

theorem forN_post {σ : Type} (n : Nat) (f : Nat → σ → R σ) (Inv : σ → Prop) (hstep : ∀ i s s', f i s = .ok s' → Inv s → Inv s') :
    ∀ s s', forN n f s = .ok s' → Inv s → Inv s' := by
  induction n with
  | zero => intro s s' h hi; cases h; exact hi
  | succ n ih =>
    intro s s' h hi
    rw [forN_succ] at h
    obtain ⟨a, h1, h2⟩ := bind_inv _ _ _ h
    exact hstep _ _ _ h2 (ih _ _ h1 hi)

theorem mapM_post {α β : Type} (f : α → R β) (P : β → Prop) (hf : ∀ a b, f a = .ok b → P b) :
    ∀ (l : List α) (out : List β), l.mapM f = .ok out → ∀ b ∈ out, P b := by
  intro l
  induction l with
  | nil => intro out h b hb; rw [List.mapM_nil] at h; cases h; cases hb
  | cons a l ih =>
    intro out h b hb
    rw [List.mapM_cons] at h
    obtain ⟨x, h1, h2⟩ := bind_inv _ _ _ h
    obtain ⟨xs, h3, h4⟩ := bind_inv _ _ _ h2
    cases h4
    rcases List.mem_cons.1 hb with rfl | hb
    · exact hf _ _ h1
    · exact ih _ h3 b hb

theorem constrain_lt (B : Nat) (v : Int) (hB : 0 < B) : (constrain v 0 ((B : Int) - 1)).toNat % 65536 < B := by
  have h : (constrain v 0 ((B : Int) - 1)).toNat < B := by rw [constrain]; omega
  exact Nat.lt_of_le_of_lt (Nat.mod_le _ _) h

theorem conv0_lt (B : Nat) (m v : Int) (r : Nat) (hB : 0 < B) (h : conv0 m ((B : Int) - 1) v = .ok r) : r < B := by
  rw [conv0] at h
  obtain ⟨a, -, h2⟩ := bind_inv _ _ _ h
  cases h2
  exact constrain_lt B a hB

theorem chroma_lt (B : Nat) (m v0 f v : Int) (r : Nat) (hB : 0 < B) (h : chroma m ((B : Int) - 1) v0 f v = .ok r) : r < B := by
  rw [chroma] at h
  obtain ⟨_, -, h⟩ := bind_inv _ _ _ h
  obtain ⟨_, -, h⟩ := bind_inv _ _ _ h
  obtain ⟨_, -, h⟩ := bind_inv _ _ _ h
  obtain ⟨_, -, h⟩ := bind_inv _ _ _ h
  cases h
  exact constrain_lt B _ hB

theorem greenOut_lt (B : Nat) (a b : Int) (r : Nat) (hB : 0 < B) (h : greenOut ((B : Int) - 1) a b = .ok r) : r < B := by
  rw [greenOut] at h
  obtain ⟨_, -, h⟩ := bind_inv _ _ _ h
  obtain ⟨_, -, h⟩ := bind_inv _ _ _ h
  cases h
  exact constrain_lt B _ hB

theorem conv3_lt (B : Nat) (m v0 v1 v2 v3 : Int) (r : Nat × Nat × Nat × Nat) (hB : 0 < B) (h : conv3 m ((B : Int) - 1) v0 v1 v2 v3 = .ok r) :
    r.1 < B ∧ r.2.1 < B ∧ r.2.2.1 < B ∧ r.2.2.2 < B := by
  rw [conv3] at h
  obtain ⟨_, -, h⟩ := bind_inv _ _ _ h
  obtain ⟨_, h0, h⟩ := bind_inv _ _ _ h
  obtain ⟨_, h1, h⟩ := bind_inv _ _ _ h
  obtain ⟨_, h2, h⟩ := bind_inv _ _ _ h
  obtain ⟨_, h3, h⟩ := bind_inv _ _ _ h
  cases h
  exact ⟨chroma_lt B _ _ _ _ _ hB h0, greenOut_lt B _ _ _ hB h1, greenOut_lt B _ _ _ hB h2, chroma_lt B _ _ _ _ _ hB h3⟩

theorem medianMax_ok (bits : Nat) (m mx : Int) (h : medianMax bits = .ok (m, mx)) : mx = ((2 ^ bits : Nat) : Int) - 1 := by
  rw [medianMax] at h
  obtain ⟨_, -, h⟩ := bind_inv _ _ _ h
  cases h
  simp

theorem convert_lt (c : Codec) (l0 l1 l2 l3 : List Int) (r : List Nat × List Nat × List Nat × List Nat) (h : convertPlaneLine c l0 l1 l2 l3 = .ok r) :
    (∀ v ∈ r.1, v < 2 ^ c.medianBits) ∧ (∀ v ∈ r.2.1, v < 2 ^ c.medianBits) ∧ (∀ v ∈ r.2.2.1, v < 2 ^ c.medianBits) ∧
      (∀ v ∈ r.2.2.2, v < 2 ^ c.medianBits) := by
  have hB : 0 < 2 ^ c.medianBits := Nat.two_pow_pos _
  rw [convertPlaneLine] at h
  obtain ⟨qs, hq, h⟩ := bind_inv _ _ _ h
  have hqs : ∀ q ∈ qs, q.1 < 2 ^ c.medianBits ∧ q.2.1 < 2 ^ c.medianBits ∧ q.2.2.1 < 2 ^ c.medianBits ∧ q.2.2.2 < 2 ^ c.medianBits := by
    rw [convertQuads] at hq
    split at hq
    · obtain ⟨⟨m, mx⟩, hm, hq⟩ := bind_inv _ _ _ hq
      have := medianMax_ok _ _ _ hm
      subst this
      refine mapM_post _ _ ?_ _ _ hq
      rintro ⟨v0, v1, v2, v3⟩ b hb
      obtain ⟨_, e0, hb⟩ := bind_inv _ _ _ hb
      obtain ⟨_, e1, hb⟩ := bind_inv _ _ _ hb
      obtain ⟨_, e2, hb⟩ := bind_inv _ _ _ hb
      obtain ⟨_, e3, hb⟩ := bind_inv _ _ _ hb
      cases hb
      exact ⟨conv0_lt _ _ _ _ hB e0, conv0_lt _ _ _ _ hB e1, conv0_lt _ _ _ _ hB e2, conv0_lt _ _ _ _ hB e3⟩
    · split at hq
      · obtain ⟨⟨m, mx⟩, hm, hq⟩ := bind_inv _ _ _ hq
        have := medianMax_ok _ _ _ hm
        subst this
        refine mapM_post _ _ ?_ _ _ hq
        rintro ⟨v0, v1, v2, v3⟩ b hb
        exact conv3_lt _ _ _ _ _ _ _ hB hb
      · cases hq
  cases h
  have key : ∀ (f : Nat × Nat × Nat × Nat → Nat) (n : Nat), (∀ q ∈ qs, f q < 2 ^ c.medianBits) →
      ∀ v ∈ qs.map f ++ List.replicate n 0, v < 2 ^ c.medianBits := by
    intro f n hf v hv
    rcases List.mem_append.1 hv with hv | hv
    · obtain ⟨q, hq, rfl⟩ := List.mem_map.1 hv
      exact hf q hq
    · rw [(List.mem_replicate.1 hv).2]; exact hB
  exact ⟨key _ _ fun q hq => (hqs q hq).1, key _ _ fun q hq => (hqs q hq).2.1, key _ _ fun q hq => (hqs q hq).2.2.1,
    key _ _ fun q hq => (hqs q hq).2.2.2⟩

def CfaOk (N B : Nat) (cfa : List Nat) : Prop := cfa.length = N ∧ ∀ v ∈ cfa, v < B

theorem integrateCfa_post (c : Codec) (t : Tile) (id p row : Nat) (plane cfa cfa' : List Nat) (N B : Nat) (hp : ∀ v ∈ plane, v < B)
    (h : integrateCfa c t id p row plane cfa = .ok cfa') (hc : CfaOk N B cfa) : CfaOk N B cfa' := by
  rw [integrateCfa] at h
  obtain ⟨_, -, h⟩ := bind_inv _ _ _ h
  obtain ⟨_, -, h⟩ := bind_inv _ _ _ h
  refine forN_post _ _ (CfaOk N B) ?_ _ _ h hc
  intro i s s' hs ⟨h1, h2⟩
  obtain ⟨v, hv, hs⟩ := bind_inv _ _ _ hs
  rw [upd] at hs
  split at hs
  · cases hs
    refine ⟨by simpa using h1, ?_⟩
    intro x hx
    rcases List.mem_or_eq_of_mem_set hx with hx | rfl
    · exact h2 x hx
    · refine hp _ ?_
      rw [idx] at hv
      split at hv
      · rename_i y hy
        cases hv
        exact List.mem_of_getElem? hy
      · cases hv
  · cases hs

theorem integrateLine_post (c : Codec) (t : Tile) (id row : Nat) (l0 l1 l2 l3 : List Int) (cfa cfa' : List Nat) (N : Nat)
    (h : integrateLine c t id row l0 l1 l2 l3 cfa = .ok cfa') (hc : CfaOk N (2 ^ c.medianBits) cfa) : CfaOk N (2 ^ c.medianBits) cfa' := by
  rw [integrateLine] at h
  obtain ⟨⟨c0, c1, c2, c3⟩, hcv, h⟩ := bind_inv _ _ _ h
  obtain ⟨k0, k1, k2, k3⟩ := convert_lt _ _ _ _ _ _ hcv
  obtain ⟨_, e0, h⟩ := bind_inv _ _ _ h
  obtain ⟨_, e1, h⟩ := bind_inv _ _ _ h
  obtain ⟨_, e2, h⟩ := bind_inv _ _ _ h
  exact integrateCfa_post _ _ _ _ _ _ _ _ _ _ k3 h (integrateCfa_post _ _ _ _ _ _ _ _ _ _ k2 e2 (integrateCfa_post _ _ _ _ _ _ _ _ _ _ k1 e1
    (integrateCfa_post _ _ _ _ _ _ _ _ _ _ k0 e0 hc)))

theorem integrateLines_post (c : Codec) (t : Tile) (id : Nat) (N : Nat) : ∀ (row : Nat) (p0 p1 p2 p3 : List (List Int)) (cfa cfa' : List Nat),
    integrateLines c t id row p0 p1 p2 p3 cfa = .ok cfa' → CfaOk N (2 ^ c.medianBits) cfa → CfaOk N (2 ^ c.medianBits) cfa' := by
  intro row p0
  induction p0 generalizing row with
  | nil => intro p1 p2 p3 cfa cfa' h hc; simp only [integrateLines] at h; cases h; exact hc
  | cons l0 p0 ih =>
    intro p1 p2 p3 cfa cfa' h hc
    cases p1 with
    | nil => simp only [integrateLines] at h; cases h; exact hc
    | cons l1 p1 =>
      cases p2 with
      | nil => simp only [integrateLines] at h; cases h; exact hc
      | cons l2 p2 =>
        cases p3 with
        | nil => simp only [integrateLines] at h; cases h; exact hc
        | cons l3 p3 =>
          rw [integrateLines] at h
          obtain ⟨a, e, h⟩ := bind_inv _ _ _ h
          exact ih _ _ _ _ _ _ h (integrateLine_post _ _ _ _ _ _ _ _ _ _ _ e hc)

theorem integrateTiles_post (c : Codec) (N : Nat) : ∀ (bufs : List (List (List (List Int)))) (id : Nat) (ts : List Tile) (cfa cfa' : List Nat),
    integrateTiles c id ts bufs cfa = .ok cfa' → CfaOk N (2 ^ c.medianBits) cfa → CfaOk N (2 ^ c.medianBits) cfa' := by
  intro bufs
  induction bufs with
  | nil =>
    intro id ts cfa cfa' h hc
    cases ts <;> · simp only [integrateTiles] at h; cases h; exact hc
  | cons b bufs ih =>
    intro id ts cfa cfa' h hc
    cases ts with
    | nil => simp only [integrateTiles] at h; cases h
    | cons t ts =>
      match b, h with
      | [p0, p1, p2, p3], h =>
        rw [integrateTiles] at h
        obtain ⟨a, e, h⟩ := bind_inv _ _ _ h
        exact ih _ _ _ _ h (integrateLines_post _ _ _ _ _ _ _ _ _ _ _ e hc)
      | [], h => simp [integrateTiles] at h
      | [_], h => simp [integrateTiles] at h
      | [_, _], h => simp [integrateTiles] at h
      | [_, _, _], h => simp [integrateTiles] at h
      | _ :: _ :: _ :: _ :: _ :: _, h => simp [integrateTiles] at h

/-- **C51**: whatever the file contains, a decoded CR3 picture has exactly width times height samples, and every sample fits the bit
depth the file declares. Both colour encodings. -/
theorem C51_decoded_size_and_range (mdat : List Nat) (cmp1 : Cmp1) (out : List Nat) (h : decompressCrx mdat cmp1 = .ok out) :
    out.length = cmp1.fWidth * cmp1.fHeight ∧ ∀ v ∈ out, v < 2 ^ cmp1.medianBits := by
  rw [decompressCrx] at h
  obtain ⟨c, hc, h⟩ := bind_inv _ _ _ h
  have hcc : c.imageWidth = cmp1.fWidth ∧ c.imageHeight = cmp1.fHeight ∧ c.medianBits = cmp1.medianBits := by
    rw [newCodec] at hc
    split at hc
    · cases hc
    · obtain ⟨_, -, hc⟩ := bind_inv _ _ _ hc
      obtain ⟨_, -, hc⟩ := bind_inv _ _ _ hc
      obtain ⟨_, -, hc⟩ := bind_inv _ _ _ hc
      obtain ⟨_, -, hc⟩ := bind_inv _ _ _ hc
      obtain ⟨_, -, hc⟩ := bind_inv _ _ _ hc
      obtain ⟨_, -, hc⟩ := bind_inv _ _ _ hc
      obtain ⟨_, -, hc⟩ := bind_inv _ _ _ hc
      split at hc
      · cases hc
      · split at hc
        · cases hc
        · cases hc; exact ⟨rfl, rfl, rfl⟩
  rw [decode] at h
  obtain ⟨_, -, h⟩ := bind_inv _ _ _ h
  obtain ⟨_, -, h⟩ := bind_inv _ _ _ h
  obtain ⟨_, -, h⟩ := bind_inv _ _ _ h
  obtain ⟨_, -, h⟩ := bind_inv _ _ _ h
  have := integrateTiles_post c (c.imageWidth * c.imageHeight) _ _ _ _ _ h ⟨by simp, fun v hv => by
    rw [(List.mem_replicate.1 hv).2]; exact Nat.two_pow_pos _⟩
  rw [← hcc.1, ← hcc.2.1, ← hcc.2.2]
  exact this

/-- encoding type 3: a 2 by 2 picture whose planes hold the single values 0, 0, 1 and 0 -/
example : decompressCrx ([0xff, 1, 0, 8, 0, 0, 0, 32, 0, 0, 0, 0] ++
      ([0, 1, 2, 3].flatMap fun i => [0xff, 2, 0, 8, 0, 0, 0, 8, i * 16 + 8, 0, 0, 0, 0xff, 3, 0, 8, 0, 0, 0, 8, 8, 0, 0, 0]) ++
      ([0x80, 0x80, 0x20, 0x80].flatMap fun b => [b, 0, 0, 0, 0, 0, 0, 0]))
      { fWidth := 2, fHeight := 2, tileWidth := 2, tileHeight := 2, nBits := 14, nPlanes := 4, encType := 3, imageLevels := 0,
        mdatHdrSize := 108, medianBits := 14 } = .ok [8192, 8193, 8192, 8192] := by
  decide +kernel

end Verif.Props
