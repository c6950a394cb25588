import Verif.Proofs.KeyId

/-!
# C13: key id translation isolates clients and round-trips
-/

namespace WolfHsm.KeyId

/-! ### Specification: what a client's key id asks for -/

/-- The client asks for the shared namespace. -/
def asksGlobal (cfg : Cfg) (r : UInt16) : Bool := cfg.globalKeys && (r &&& globalFlag) != 0
/-- The client asks for a hardware key. -/
def asksHw (cfg : Cfg) (r : UInt16) : Bool := cfg.hwKeystore && (r &&& hwFlag) != 0
/-- The client asks for a wrapped-namespace key (hardware wins over wrapped). -/
def asksWrapped (cfg : Cfg) (r : UInt16) : Bool :=
  cfg.keywrap && (r &&& wrappedFlag) != 0 && !asksHw cfg r

/-! ### Theorems -/

/-- **C13 (fields).** Packing and unpacking a key name are inverse on 4-bit
types and users and 8-bit ids, and every 16-bit name is packed from its own
fields. -/
theorem C13_fields (t u i : UInt16) (ht : t < 16) (hu : u < 16) :
    typeOf (make t u i) = t ∧ userOf (make t u i) = u ∧ idOf (make t u i) = i &&& 0xFF ∧
    make (typeOf i) (userOf i) (idOf i) = i := by
  rw [typeOf_make, userOf_make, idOf_make, and_F ht, and_F hu]
  exact ⟨rfl, rfl, rfl, make_parts i⟩

/-- **C13 (translation).** The internal name of a client's key id carries the
client as owner unless the shared namespace is asked for, the type asked for,
and the low byte of the id. -/
theorem C13_fromClient_fields (cfg : Cfg) (t c r : UInt16) (ht : t < 16) (hc : c < 16) :
    userOf (fromClient cfg t c r) = (if asksGlobal cfg r then userGlobal else c) ∧
    typeOf (fromClient cfg t c r) =
      (if asksHw cfg r then typeHw else if asksWrapped cfg r then typeWrapped else t) ∧
    idOf (fromClient cfg t c r) = r &&& 0xFF := by
  simp only [fromClient, userOf_make, typeOf_make, idOf_make, and_FF_FF, asksGlobal, asksHw,
    asksWrapped]
  refine ⟨?_, ?_, trivial⟩
  · by_cases h : (cfg.globalKeys && (r &&& globalFlag) != 0) = true
    · simp only [h, if_true]; decide
    · simp only [h]; exact and_F hc
  · by_cases h : (cfg.hwKeystore && (r &&& hwFlag) != 0) = true
    · simp only [h, if_true]; decide
    · have h' : (cfg.hwKeystore && (r &&& hwFlag) != 0) = false := by simpa using h
      simp only [h', Bool.false_eq_true, if_false, Bool.not_false, Bool.and_true]
      split
      · decide
      · exact and_F ht

/-- **C13 (isolation).** Two different clients' key ids (of whatever type) get
the same internal name only if both explicitly ask for the shared namespace. -/
theorem C13_isolation (cfg : Cfg) (t t' c c' r r' : UInt16) (ht : t < 16) (ht' : t' < 16)
    (hc : 0 < c ∧ c ≤ clientIdMax) (hc' : 0 < c' ∧ c' ≤ clientIdMax) (hne : c ≠ c')
    (heq : fromClient cfg t c r = fromClient cfg t' c' r') :
    asksGlobal cfg r = true ∧ asksGlobal cfg r' = true := by
  have hmax : ∀ x : UInt16, x ≤ clientIdMax → x < 16 := by
    intro x hx
    have : x.toNat ≤ clientIdMax.toNat := hx
    have e : clientIdMax.toNat = 15 := by decide
    show x.toNat < 16
    omega
  have hu := (C13_fromClient_fields cfg t c r ht (hmax _ hc.2)).1
  have hu' := (C13_fromClient_fields cfg t' c' r' ht' (hmax _ hc'.2)).1
  rw [heq, hu'] at hu
  have n0 : ∀ x : UInt16, 0 < x → x ≠ userGlobal := by
    intro x hx h; subst h; exact absurd hx (by decide)
  cases hg : asksGlobal cfg r <;> cases hg' : asksGlobal cfg r' <;> simp [hg, hg'] at hu ⊢
  · exact hne hu.symm
  · exact n0 c hc.1 hu.symm
  · exact n0 c' hc'.1 hu

/-- **C13 (same client).** For one client the internal name determines the id
byte, whether the shared namespace was asked for, and the type asked for. -/
theorem C13_injective (cfg : Cfg) (t c r r' : UInt16) (ht : t < 16)
    (htk : t ≠ typeHw ∧ t ≠ typeWrapped) (hc : 0 < c ∧ c < 16)
    (heq : fromClient cfg t c r = fromClient cfg t c r') :
    r &&& 0xFF = r' &&& 0xFF ∧ asksGlobal cfg r = asksGlobal cfg r' ∧
    asksHw cfg r = asksHw cfg r' ∧ asksWrapped cfg r = asksWrapped cfg r' := by
  obtain ⟨hu, htp, hi⟩ := C13_fromClient_fields cfg t c r ht hc.2
  obtain ⟨hu', htp', hi'⟩ := C13_fromClient_fields cfg t c r' ht hc.2
  rw [heq] at hu htp hi
  rw [hu'] at hu; rw [htp'] at htp; rw [hi'] at hi
  have hc0 : c ≠ userGlobal := by
    intro h; subst h; exact absurd hc.1 (by decide)
  have hwh : ∀ q, asksHw cfg q = true → asksWrapped cfg q = false := by
    intro q hq; simp [asksWrapped, hq]
  refine ⟨hi.symm, ?_, ?_, ?_⟩
  · cases hg : asksGlobal cfg r <;> cases hg' : asksGlobal cfg r' <;> simp [hg, hg'] at hu ⊢
    · exact hc0 hu.symm
    · exact hc0 hu
  all_goals
    have hd : typeWrapped ≠ typeHw := by decide
    have hd' : typeHw ≠ typeWrapped := by decide
    cases hh : asksHw cfg r <;> cases hh' : asksHw cfg r' <;>
      cases hw : asksWrapped cfg r <;> cases hw' : asksWrapped cfg r' <;>
      simp_all

/-- **C13 (round trip).** Translating back a client's own key name gives the id
byte with exactly the flags the client's request effectively used. -/
theorem C13_roundtrip (cfg : Cfg) (t c r : UInt16) (ht : t < 16)
    (htk : t ≠ typeHw ∧ t ≠ typeWrapped) (hc : 0 < c ∧ c < 16) :
    toClient cfg (fromClient cfg t c r) =
      ((r &&& 0xFF) ||| (if asksGlobal cfg r then globalFlag else 0) |||
        (if asksWrapped cfg r then wrappedFlag else 0) |||
        (if asksHw cfg r then hwFlag else 0)) := by
  obtain ⟨hu, htp, hi⟩ := C13_fromClient_fields cfg t c r ht hc.2
  have hc0 : (c == userGlobal) = false := by
    simp only [beq_eq_false_iff_ne]
    intro h; subst h; exact absurd hc.1 (by decide)
  have hg : (cfg.globalKeys && userOf (fromClient cfg t c r) == userGlobal) = asksGlobal cfg r := by
    rw [hu]
    cases hga : asksGlobal cfg r
    · simp [hc0]
    · have : cfg.globalKeys = true := by
        simp only [asksGlobal, Bool.and_eq_true] at hga; exact hga.1
      simp [this]
  have hd : (typeWrapped == typeHw) = false := by decide
  have hd' : (typeHw == typeWrapped) = false := by decide
  have ht1 : (t == typeHw) = false := by simp [htk.1]
  have ht2 : (t == typeWrapped) = false := by simp [htk.2]
  have hw : (cfg.keywrap && typeOf (fromClient cfg t c r) == typeWrapped) = asksWrapped cfg r := by
    rw [htp]
    cases hha : asksHw cfg r
    · cases hwa : asksWrapped cfg r
      · simp [ht2]
      · have : cfg.keywrap = true := by
          simp only [asksWrapped, Bool.and_eq_true] at hwa; exact hwa.1.1
        simp [this]
    · simp [hd', asksWrapped, hha]
  have hh : (cfg.hwKeystore && typeOf (fromClient cfg t c r) == typeHw) = asksHw cfg r := by
    rw [htp]
    cases hha : asksHw cfg r
    · cases hwa : asksWrapped cfg r
      · simp [ht1]
      · simp [hd]
    · have : cfg.hwKeystore = true := by
        simp only [asksHw, Bool.and_eq_true] at hha; exact hha.1
      simp [this]
  simp only [toClient, hg, hw, hh, hi]
  cases asksGlobal cfg r <;> cases asksWrapped cfg r <;> cases asksHw cfg r <;> simp

/-- **C13 (round trip from the server side).** An id handed to a client for one
of its own (or a shared) crypto, wrapped or hardware keys comes back as that
very key, in configurations that support the namespace. -/
theorem C13_roundtrip_server (cfg : Cfg) (c k : UInt16)
    (huser : userOf k = c ∨ (cfg.globalKeys = true ∧ userOf k = userGlobal))
    (htype : typeOf k = typeCrypto ∨ (cfg.keywrap = true ∧ typeOf k = typeWrapped) ∨
      (cfg.hwKeystore = true ∧ typeOf k = typeHw)) (hc : 0 < c ∧ c < 16) :
    fromClient cfg typeCrypto c (toClient cfg k) = k := by
  obtain ⟨g, hg⟩ : ∃ g, (cfg.globalKeys && userOf k == userGlobal) = g := ⟨_, rfl⟩
  obtain ⟨w, hw⟩ : ∃ w, (cfg.keywrap && typeOf k == typeWrapped) = w := ⟨_, rfl⟩
  obtain ⟨h, hh⟩ : ∃ h, (cfg.hwKeystore && typeOf k == typeHw) = h := ⟨_, rfl⟩
  have hform : toClient cfg k = idOf k ||| (if g then globalFlag else 0) |||
      (if w then wrappedFlag else 0) ||| (if h then hwFlag else 0) := by
    simp only [toClient, hg, hw, hh]
    cases g <;> cases w <;> cases h <;> simp
  obtain ⟨f0, f1, f2, f3⟩ := flag_of_or k g w h
  rw [← hform] at f0 f1 f2 f3
  obtain ⟨hu, htp, hi⟩ := C13_fromClient_fields cfg typeCrypto c (toClient cfg k) (by decide) hc.2
  have hd : typeWrapped ≠ typeHw := by decide
  have hd1 : typeCrypto ≠ typeHw := by decide
  have hd2 : typeCrypto ≠ typeWrapped := by decide
  have hc0 : c ≠ userGlobal := by
    intro h; subst h; exact absurd hc.1 (by decide)
  apply ext_fields
  · rw [htp]
    simp only [asksHw, asksWrapped, f2, f3, ← hw, ← hh]
    rcases htype with ht | ⟨hk, ht⟩ | ⟨hk, ht⟩
    · simp [ht, hd1, hd2]
    · simp [ht, hk, hd]
    · simp [ht, hk]
  · rw [hu]
    simp only [asksGlobal, f1, ← hg]
    rcases huser with hu' | ⟨hk, hu'⟩
    · simp [hu', hc0]
    · simp [hu', hk]
  · rw [hi]; exact f0

/-- Concrete cases meeting the hypotheses: client 3 asking for global wrapped key
7, and client 5's own key 7. -/
example : fromClient ⟨true, true, true⟩ typeCrypto 3 0x0307 = 0x4007 ∧
    toClient ⟨true, true, true⟩ 0x4007 = 0x0307 ∧
    fromClient ⟨true, true, true⟩ typeCrypto 5 7 = 0x1507 ∧
    fromClient ⟨false, true, true⟩ typeCrypto 3 0x0307 = 0x4307 := by decide

end WolfHsm.KeyId
