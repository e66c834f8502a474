import Verif.Props.ClientHonest
import Verif.Props.EndToEnd
import Verif.Lemmas.Disk

/-!
# C85: new clients
-/

namespace RustTuf.Props
open Client Spec RustTuf Tuf

variable {W : Type} {E : Env} {D : Digest} {R : World W} {cfg : Config} {files : W → Files}

/-- The local repository has nothing that a new client whose root is `q` could load. -/
structure NothingLocal (f : Files) (q : RootMetadata) : Prop where
  roots : f "root".toList (.number (q.version + 1)) = none
  timestamp : f "timestamp".toList .none = none

theorem cacheFetch_absent_st (hR : Reads R files) {role : Role} {p : MetadataPath} {v : MetadataVersion}
    {m : Option Nat} {h : HashData} (t : Tuf) (F : Files) (hc : checkRole role p = .ok ())
    (hf : F p v = none) :
    Tri (fun s : St W => s.tuf = t ∧ files s.io.w = F) (lift (fetchMetadata D R .cache role p v m h))
      (fun _ _ => False) (fun e s => e = .notFound ∧ s.tuf = t ∧ files s.io.w = F) := by
  rintro s ⟨h1, h2⟩
  obtain ⟨io', e1, e2, -⟩ := cacheFetch_absent (D := D) (m := m) (h := h) hR (io := s.io) hc
    (by rw [h2]; exact hf)
  unfold lift
  rw [e1]
  exact ⟨rfl, h1, e2.trans h2⟩

theorem loadLocal_fresh (hR : Reads R files) (q : RootMetadata) (F : Files) (hq : q.version < 4294967295)
    (hF : NothingLocal F q) :
    Tri (fun s : St W => s.tuf = ofRoot q ∧ files s.io.w = F) (loadLocal E D R cfg)
      (fun _ _ => False) (fun e s => e ≠ .panic ∧ s.tuf = ofRoot q ∧ files s.io.w = F) := by
  have loop : Tri (fun s : St W => s.tuf = ofRoot q ∧ files s.io.w = F)
      (rootLoop E D R cfg .cache false rootFuel false)
      (fun _ s => s.tuf = ofRoot q ∧ files s.io.w = F)
      (fun _ _ => False) := by
    show Tri _ (rootLoop E D R cfg .cache false (u32Max + 1 + 1) false) _ _
    unfold rootLoop
    refine Tri.bind (Q := fun t s => t = ofRoot q ∧ s.tuf = ofRoot q ∧ files s.io.w = F)
      (fun s h => ⟨h.1, h⟩) fun t => Tri.assume fun ht => ?_
    subst ht
    refine Tri.bind (Q := fun nx s => nx = q.version + 1 ∧ s.tuf = ofRoot q ∧ files s.io.w = F)
      (Tri.ofExcept (fun nx s h hs => ⟨?_, hs⟩) (fun e s h _ => ?_)) fun nx => Tri.assume fun hnx => ?_
    · unfold nextRootVersion u32Max at h
      rw [if_neg (by simp only [ofRoot]; omega)] at h
      cases h; rfl
    · unfold nextRootVersion u32Max at h
      rw [if_neg (by simp only [ofRoot]; omega)] at h
      cases h
    subst hnx
    refine Tri.bind (Tri.attempt (cacheFetch_absent_st (D := D) hR (role := .root)
      (p := MetadataPath.fromRole .root) (ofRoot q) F (by decide +kernel) hF.roots)
      (fun _ h => nomatch h.1)) fun x => ?_
    cases x with
    | ok raw => exact fun s hs => hs.elim
    | error e =>
      refine Tri.assume fun he => ?_
      subst he
      exact Tri.ret fun s hs => hs
  unfold loadLocal updateRootWithRepos
  refine Tri.bind (Q := fun _ s => s.tuf = ofRoot q ∧ files s.io.w = F) ?_ fun _ => ?_
  · refine Tri.bind (loop.conseq (fun _ h => h) (fun _ _ h => h) (fun _ _ h => h.elim)) fun _ => ?_
    refine Tri.bind (Q := fun _ s => s.tuf = ofRoot q ∧ files s.io.w = F)
      (Tri.getClock fun s hs => ⟨hs.1, (hR.clock _).trans hs.2⟩) fun c => ?_
    refine Tri.bind (Q := fun _ (s : St W) => s.tuf = ofRoot q ∧ files s.io.w = F)
      (fun (s : St W) h => h) fun t => ?_
    exact Tri.ite (fun _ => Tri.fail fun s h => ⟨by simp, h⟩) (fun _ => Tri.ret fun _ h => h)
  · refine Tri.bind (Q := fun _ _ => False) ?_ fun _ => fun s hs => hs.elim
    unfold updateTimestampWithRepos
    refine Tri.bind (Q := fun _ _ => False) ((cacheFetch_absent_st (D := D) hR (role := .timestamp)
      (p := MetadataPath.fromRole .timestamp) (ofRoot q) F (by decide +kernel) hF.timestamp).conseq
      (fun _ h => h) (fun _ _ h => h) (fun e s h => ⟨by rw [h.1]; simp, h.2⟩)) fun _ s hs => hs.elim

theorem new_fresh (hR : Reads R files) (q : RootMetadata) (hq : q.version < 4294967295) (io : Io W)
    (hF : NothingLocal (files io.w) q) :
    ∃ io', Client.new E D R cfg (ofRoot q) io = (.ok (ofRoot q), io') ∧ files io'.w = files io.w := by
  have h := loadLocal_fresh (E := E) (D := D) (cfg := cfg) hR q (files io.w) hq hF ⟨ofRoot q, io⟩
    ⟨rfl, rfl⟩
  unfold Client.new
  cases hm : loadLocal E D R cfg ⟨ofRoot q, io⟩ with
  | mk r s =>
    rw [hm] at h
    cases r with
    | ok _ => exact h.elim
    | error e =>
      obtain ⟨h1, h2, h3⟩ := h
      refine ⟨s.io, ?_, h3⟩
      rw [← h2]
      cases e <;> first | rfl | exact absurd rfl h1

theorem _root_.RustTuf.Spec.Faithful.writable (hR : Faithful R files) : Writable R :=
  fun p v raw w => (hR.store p v raw w).1

theorem fromTrustedRoot_self {E : Env} {raw : Bytes} {q : RootMetadata} {sigs : List Signature} {signed : E.Raw}
    (hp : E.parseSigned raw = .ok (sigs, signed)) (hd : E.rootOfRaw signed = .ok q)
    (ha : Authentic E E.rootFromSlice raw q.root.threshold (rootSigners q) q) :
    fromTrustedRoot E raw = .ok (ofRoot q) := by
  unfold fromTrustedRoot
  have hv := (verifySignatures_ok_iff ..).2 ha
  rw [← rootKeys_eq] at hv
  simp only [hp, hd, hv]

/-- **C85.** A client that is given a self-signed root and has nothing stored starts with exactly this
root. -/
theorem C85_starts_with_root (E : Env) (D : Digest) (R : World W) (cfg : Config) (hR : Reads R files)
    (raw : Bytes) (q : RootMetadata) (sigs : List Signature) (signed : E.Raw)
    (hp : E.parseSigned raw = .ok (sigs, signed)) (hd : E.rootOfRaw signed = .ok q)
    (ha : Authentic E E.rootFromSlice raw q.root.threshold (rootSigners q) q) (hq : q.version < 4294967295)
    (io : Io W) (hl : NothingLocal (files io.w) q) :
    ∃ io', construct E D R cfg (.trustedRoot raw) io = (.ok (ofRoot q), io') ∧
      files io'.w = files io.w := by
  have h0 := fromTrustedRoot_self hp hd ha
  obtain ⟨io', e1, e2⟩ := new_fresh (E := E) (D := D) (cfg := cfg) hR q hq io hl
  refine ⟨io', ?_, e2⟩
  show M.bind (M.ofExcept (fromTrustedRoot E raw)) _ io = _
  unfold M.bind M.ofExcept
  rw [h0]
  exact e1

/-- **C85.** A client that is given root keys and has nothing stored fetches the root, starts with
exactly this root and stores its bytes, and nothing else, under its version. -/
theorem C85_starts_with_keys (E : Env) (D : Digest) (R : World W) (cfg : Config) (hR : Faithful R files)
    (file : Files) (hS : Serves R file) (raw : Bytes) (q : RootMetadata) (v : MetadataVersion) (n : Nat)
    (keys : List PublicKey) (hf : file "root".toList v = some raw) (hlen : NotLonger cfg.maxRootLength raw)
    (hk : Authentic E E.rootFromSlice raw n keys q)
    (ha : Authentic E E.rootFromSlice raw q.root.threshold (rootSigners q) q) (hq : q.version < 4294967295)
    (io : Io W) (hv : files io.w "root".toList v = none) (hl : NothingLocal (files io.w) q) :
    ∃ io', construct E D R cfg (.trustedRootKeys v n keys) io = (.ok (ofRoot q), io') ∧
      files io'.w = (files io.w).put "root".toList (.number q.version) raw := by
  obtain ⟨io1, e1, e2, -⟩ := cacheFetch_absent (D := D) (role := .root) (m := cfg.maxRootLength)
    (h := none) hR.toReads (by decide +kernel) hv
  obtain ⟨evs, g1, g2⟩ := hS.present "root".toList v cfg.maxRootLength none io1.w raw (.inl rfl) hf
  have g3 := hR.remoteFetch "root".toList v cfg.maxRootLength none io1.w
  cases hfetch : R.remote.fetchMetadata "root".toList v cfg.maxRootLength none io1.w with
  | mk x w2 =>
    rw [hfetch] at g1 g3
    cases g1
    have e3 : fetchMetadata D R .remote .root (MetadataPath.fromRole .root) v cfg.maxRootLength none io1 =
        (.ok raw, ⟨w2, (io1.log ++ [.fetch .remote "root".toList v cfg.maxRootLength none]) ++
          [.got .remote "root".toList raw]⟩) := by
      have hc : checkRole .root (MetadataPath.fromRole .root) = .ok () := by decide +kernel
      have hpath : MetadataPath.fromRole .root = "root".toList := rfl
      simp only [fetchMetadata, hc]
      show M.bind _ _ _ = _
      simp only [M.bind, M.ofExcept, Bind.bind, Io.note, Io.call, World.provider, hpath, hfetch,
        readChecked_of_readable (fun _ _ h => by cases h) (readable_of_notLonger (D := D) hlen) g2]
      rfl
    obtain ⟨io2, hio2⟩ : ∃ io2 : Io W, io2 = ⟨w2, (io1.log ++
      [.fetch .remote "root".toList v cfg.maxRootLength none]) ++ [.got .remote "root".toList raw]⟩ :=
      ⟨_, rfl⟩
    rw [← hio2] at e3
    have hf2 : files io2.w = files io.w := by rw [hio2]; exact g3.trans e2
    have h0 : fromRootWithTrustedKeys E raw n keys = .ok (ofRoot q) := by
      unfold fromRootWithTrustedKeys
      have : verifySignatures E E.rootFromSlice raw q.root.threshold
        (filterKeys q.keys q.root.keyIds) = .ok q := (verifySignatures_ok_iff ..).2 ha
      simp only [(verifySignatures_ok_iff ..).2 hk, this]
    obtain ⟨s1, s2⟩ := hR.store "root".toList (.number q.version) raw io2.w
    cases hst : R.storeMetadata "root".toList (.number q.version) raw io2.w with
    | mk x w3 =>
      rw [hst] at s1 s2
      cases s1
      obtain ⟨io3, e4, hf3⟩ : ∃ io3, storeMetadata R .root (MetadataPath.fromRole .root)
          (.number q.version) raw io2 = (.ok (), io3) ∧
          files io3.w = (files io.w).put "root".toList (.number q.version) raw := by
        refine ⟨⟨w3, io2.log ++ [.store "root".toList (.number q.version) raw]⟩, ?_,
          by rw [← hf2]; exact s2⟩
        have hc : checkRole .root (MetadataPath.fromRole .root) = .ok () := by decide +kernel
        have hpath : MetadataPath.fromRole .root = "root".toList := rfl
        simp only [storeMetadata, hc]
        show M.bind _ _ _ = _
        simp only [M.bind, M.ofExcept, Bind.bind, Io.note, Io.call, hpath, hst]
      obtain ⟨io4, e5, e6⟩ := new_fresh (E := E) (D := D) (cfg := cfg) hR.toReads q hq io3 (by
        rw [hf3]
        refine ⟨?_, ?_⟩
        · unfold Files.put
          rw [if_neg (by simp)]
          exact hl.roots
        · rw [Files.put_ne (by decide +kernel)]
          exact hl.timestamp)
      refine ⟨io4, ?_, e6.trans hf3⟩
      have e7 : fetchLocalOrRemote D R .root (MetadataPath.fromRole .root) v cfg.maxRootLength none io =
          (.ok (true, raw), io2) := by
        unfold fetchLocalOrRemote
        show M.bind (M.attempt _) _ io = _
        have e1 : fetchMetadata D R .cache .root (MetadataPath.fromRole .root) v cfg.maxRootLength none io =
          (.error .notFound, io1) := e1
        simp only [M.bind, M.attempt, e1]
        show M.bind _ _ io1 = _
        simp only [M.bind, e3]
        rfl
      show M.bind _ _ io = _
      simp only [M.bind, e7]
      show M.bind _ _ io2 = _
      simp only [M.bind, M.ofExcept, h0]
      show M.bind (M.when true _) _ io2 = _
      simp only [M.bind, M.when, if_true]
      have e4' : storeMetadata R .root (MetadataPath.fromRole .root)
          (.number (ofRoot q).root.version) raw io2 = (.ok (), io3) := e4
      rw [e4']
      exact e5

/-! ### With the formats in use -/

section
open Formats Keys Json
variable (rg : Ring) (verify : Scheme → Bytes → Bytes → Bytes → Bool) (F : FloatLib) (H : Bytes → Bytes)
  (order : Map KeyId Signature → List (KeyId × Signature)) (perm : ∀ m, (order m).Perm m)

/-- Ways to install a client for the root `x`: with its bytes, or with enough keys, if the bytes are
uploaded under this version. In both cases the root is signed with loaded private keys. -/
inductive Installs (cfg : Config) (file : Files) (x : RootMetadata) : Start → Prop
  | root (sm : SignedMetadata JsonValue) (raw : Bytes) :
      SignedByLoaded rg F H (encodeRoot (lib F H)) (decodeRoot (lib F H)) x sm (rootSigners x)
        x.root.threshold →
      sm.toRaw = .ok raw → Installs cfg file x (.trustedRoot raw)
  | keys (sm : SignedMetadata JsonValue) (v : MetadataVersion) (n : Nat) (keys : List PublicKey) :
      SignedByLoaded rg F H (encodeRoot (lib F H)) (decodeRoot (lib F H)) x sm keys n →
      SignedByLoaded rg F H (encodeRoot (lib F H)) (decodeRoot (lib F H)) x sm (rootSigners x)
        x.root.threshold →
      (∀ raw, sm.toRaw = .ok raw →
        file "root".toList v = some raw ∧ NotLonger cfg.maxRootLength raw) →
      Installs cfg file x (.trustedRootKeys v n keys)

theorem root_parsed (L : RingLaw rg verify) (hH : ∀ b, (H b).length = 32) {x q : RootMetadata}
    (hx : BuiltRoot F H x) {sm : SignedMetadata JsonValue} {keys : List PublicKey} {n : Nat}
    (h : SignedByLoaded rg F H (encodeRoot (lib F H)) (decodeRoot (lib F H)) x sm keys n) {raw : Bytes}
    (hraw : sm.toRaw = .ok raw)
    (ha : Authentic (jsonEnv (lib F H) verify order perm)
        (jsonEnv (lib F H) verify order perm).rootFromSlice raw n keys q) :
    (jsonEnv (lib F H) verify order perm).parseSigned raw = .ok (sm.signatures, sm.metadata) ∧
      (jsonEnv (lib F H) verify order perm).rootOfRaw sm.metadata = .ok q := by
  have hp := h.published rg verify F H order perm L hH rfl
  obtain ⟨j, q', h1, h2, h3⟩ := C80_root F H x hx.date.1 hx.date.2 hx.good hx.keys hx.fits
  obtain ⟨raw', h4, h5⟩ := hp.accepted (lib F H) verify
    order perm (fun j e => by have := nesting_encodeRoot (lib F H) e; omega) h1 h2
  rw [hraw] at h4
  cases h4
  cases authentic_unique ha (authentic_of_ok h5)
  obtain ⟨j', e1, e2⟩ := hp.content
  rw [h1] at e1
  cases e1
  obtain ⟨msg, hc⟩ := made_canonical hp.made
  obtain ⟨raw', g1, g2⟩ := C71_to_raw_parses (lib F H) verify order perm sm msg hc hp.ids (by
    rw [e2]
    have := nesting_encodeRoot (lib F H) h1
    exact lt_of_le_of_lt (nesting_normal _) (by omega))
  rw [hraw] at g1
  cases g1
  refine ⟨g2, ?_⟩
  show fromValue (decodeRoot (lib F H)) sm.metadata.1 = _
  rw [e2]
  unfold fromValue Json.toValue
  simp only
  rw [h2]

theorem Rotations.start_lt {cfg : Config} {file : Files} {x r : RootMetadata}
    (h : Rotations rg F H cfg file x r) : x.version < 4294967295 := by
  have : x.version ≤ r.version ∧ r.version < 4294967295 := by
    induction h with
    | last r h _ => exact ⟨Nat.le_refl _, h⟩
    | next r x r' sm _ hv _ _ _ _ ih => omega
  omega

/-- **C85.** However it is installed, a new client starts with exactly the author's root, up to
fractions of a second in its expiry date. -/
theorem C85_installs (L : RingLaw rg verify) (hH : ∀ b, (H b).length = 32) (D : Digest) (R : World W)
    (cfg : Config) (hR : Faithful R files) (file : Files) (hS : Serves R file) (x : RootMetadata)
    (hx : BuiltRoot F H x) (hv : x.version < 4294967295) (start : Start)
    (h : Installs rg F H cfg file x start) (io : Io W) (hempty : ∀ p v, files io.w p v = none) :
    ∃ q io', construct (jsonEnv (lib F H) verify order perm) D R cfg start io = (.ok (ofRoot q), io') ∧
      ReadAs x q := by
  cases h with
  | root sm raw h1 hraw =>
    obtain ⟨raw', q, e1, hq, -⟩ := root_authentic rg verify F H order perm L hH hx h1
    obtain ⟨raw'', q', e1', hq', ha'⟩ := root_authentic rg verify F H order perm L hH hx
      (h1.of_mem rg F H (hq.keys x.root.keyIds))
    rw [hraw] at e1'
    cases e1'
    have er : x.root = q'.root := hq'.same.root
    have ev : x.version = q'.version := hq'.same.version
    have h1' := h1.of_mem rg F H (keys' := (rootSigners q')) (by
      unfold rootSigners; rw [← er]; exact hq'.keys _)
    obtain ⟨raw2, q2, e2, hq2, ha2⟩ := root_authentic rg verify F H order perm L hH hx h1'
    rw [hraw] at e2
    cases e2
    cases authentic_unique ha' ha2
    obtain ⟨hp, hd⟩ := root_parsed rg verify F H order perm L hH hx h1' hraw ha2
    obtain ⟨io', e, -⟩ := C85_starts_with_root (jsonEnv (lib F H) verify order perm) D R cfg hR.toReads raw
      q' _ _ hp hd (by rw [← er]; exact ha2) (by omega) io ⟨hempty _ _, hempty _ _⟩
    exact ⟨q', io', e, hq'⟩
  | keys sm v n keys h1 h2 hf =>
    obtain ⟨raw, q, e1, hq, ha⟩ := root_authentic rg verify F H order perm L hH hx h1
    have er : x.root = q.root := hq.same.root
    have ev : x.version = q.version := hq.same.version
    obtain ⟨raw2, q2, e2, -, ha2⟩ := root_authentic rg verify F H order perm L hH hx
      (h2.of_mem rg F H (keys' := (rootSigners q)) (by
        unfold rootSigners; rw [← er]; exact hq.keys _))
    rw [e1] at e2
    cases e2
    cases authentic_unique ha ha2
    obtain ⟨io', e, -⟩ := C85_starts_with_keys (jsonEnv (lib F H) verify order perm) D R cfg hR file hS raw
      q v n keys (hf raw e1).1 (hf raw e1).2 ha (by rw [← er]; exact ha2) (by omega) io (hempty _ _)
      ⟨hempty _ _, hempty _ _⟩
    exact ⟨q, io', e, hq⟩

/-- **C85.** The author builds root, targets, snapshot and timestamp metadata, signs them with loaded
private keys, perhaps rotates keys, and uploads everything. A client is installed somewhere with nothing
but the first root or keys for it and updates. Then the metadata it trusts lists the author's target. -/
theorem C85_new_client_knows_target (L : RingLaw rg verify) (hH : ∀ b, (H b).length = 32)
    (D : Digest) (R : World W) (cfg : Config) (hR : Faithful R files) (file : Files) (hS : Serves R file)
    (x r : RootMetadata) (hx : BuiltRoot F H x) (hrot : Rotations rg F H cfg file x r)
    (cs : List TargetsCall) (ta : TargetsMetadata) (sta : SignedMetadata JsonValue)
    (sn : SnapshotMetadata) (ssn : SignedMetadata JsonValue) (ts : TimestampMetadata)
    (sts : SignedMetadata JsonValue) (h : FullRelease rg F H D cfg file r cs ta sta sn ssn ts sts)
    (hclk : Before R (wholeSecond r.expires) ∧ Before R (wholeSecond ts.expires) ∧
      Before R (wholeSecond sn.expires) ∧ Before R (wholeSecond ta.expires))
    (path name : TargetPath) (virt : VirtualTargetPath) (src : List Ev) (algs : List HashAlg)
    (content : Bytes) (hlast : LastAbout TargetsCall.path? cs virt (.target virt src algs))
    (hsrc : delivered src = (content, .eof))
    (hvirt : cfg.realToVirtual path = .ok virt)
    (hname : TargetFile r (D (usedAlg algs) content) path name)
    (start : Start) (hstart : Installs rg F H cfg file x start) (io : Io W)
    (hempty : ∀ p v, files io.w p v = none) :
    ∃ t io' u s1,
      construct (jsonEnv (lib F H) verify order perm) D R cfg start io = (.ok t, io') ∧
      update (jsonEnv (lib F H) verify order perm) D R cfg ⟨t, io'⟩ = (.ok u, s1) ∧
      Available D cfg s1.tuf path name content := by
  obtain ⟨q, io', e, hq⟩ := C85_installs rg verify F H order perm L hH D R cfg hR file hS x hx
    hrot.start_lt start hstart io hempty
  have hr : Reachable (jsonEnv (lib F H) verify order perm) (ofRoot q) := by
    obtain ⟨t0, ops, h0, h1⟩ := C28_client_refines_tuf _ D R cfg start io io' _ e []
    exact ⟨t0, ops, startsWith_fresh h0, h1⟩
  obtain ⟨u, s1, h1, h2⟩ := C84_target_is_listed rg verify F H order perm L hH D R cfg file
    ⟨ofRoot q, io'⟩ x r cs ta sta sn ssn ts sts h hr hS hR.writable hq hrot
    ⟨fun _ _ h => (nomatch h), fun _ h => (nomatch h), fun _ h => (nomatch h)⟩ hclk path name virt src
    algs content hlast hsrc hvirt hname
  exact ⟨_, io', u, s1, e, h1, h2⟩

/-- **C85.** The whole life of a target. The author builds root, targets, snapshot and timestamp
metadata, signs them with loaded private keys, perhaps rotates keys, and uploads everything. A client
is installed somewhere with nothing but the first root or keys for it, updates, asks for the target,
and gets exactly the author's bytes. -/
theorem C85_new_client_gets_target (L : RingLaw rg verify) (hH : ∀ b, (H b).length = 32)
    (D : Digest) (R : World W) (cfg : Config) (hR : Faithful R files) (file : Files) (hS : Serves R file)
    (x r : RootMetadata) (hx : BuiltRoot F H x) (hrot : Rotations rg F H cfg file x r)
    (cs : List TargetsCall) (ta : TargetsMetadata) (sta : SignedMetadata JsonValue)
    (sn : SnapshotMetadata) (ssn : SignedMetadata JsonValue) (ts : TimestampMetadata)
    (sts : SignedMetadata JsonValue) (h : FullRelease rg F H D cfg file r cs ta sta sn ssn ts sts)
    (hclk : Before R (wholeSecond r.expires) ∧ Before R (wholeSecond ts.expires) ∧
      Before R (wholeSecond sn.expires) ∧ Before R (wholeSecond ta.expires))
    (path name : TargetPath) (virt : VirtualTargetPath) (src : List Ev) (algs : List HashAlg)
    (content : Bytes) (hlast : LastAbout TargetsCall.path? cs virt (.target virt src algs))
    (hsrc : delivered src = (content, .eof))
    (hnew : TargetPath.new path = .ok path) (hvirt : cfg.realToVirtual path = .ok virt)
    (hname : TargetFile r (D (usedAlg algs) content) path name) (hserve : ServesTarget R name content)
    (hwrite : Accepts R)
    (start : Start) (hstart : Installs rg F H cfg file x start) (io : Io W)
    (hempty : ∀ p v, files io.w p v = none) :
    ∃ t io' u s1 s2 l,
      construct (jsonEnv (lib F H) verify order perm) D R cfg start io = (.ok t, io') ∧
      update (jsonEnv (lib F H) verify order perm) D R cfg ⟨t, io'⟩ = (.ok u, s1) ∧
      exec (jsonEnv (lib F H) verify order perm) D R cfg (.fetchTargetToWriter path) s1 =
        (.ok .done, s2) ∧
      s2.io.log = s1.io.log ++ l ∧ written l = content := by
  obtain ⟨t, io', u, s1, e1, e2, hl⟩ := C85_new_client_knows_target rg verify F H order perm L hH D R cfg hR
    file hS x r hx hrot cs ta sta sn ssn ts sts h hclk path name virt src algs content hlast hsrc hvirt
    hname start hstart io hempty
  obtain ⟨s2, l, k1, -, k3, k4⟩ := C74_listed_target_is_written (jsonEnv (lib F H) verify order perm) D R cfg
    path name content s1 hnew hl hserve hwrite
  exact ⟨t, io', u, s1, s2, l, e1, e2, k1, k3, k4⟩

end

end RustTuf.Props
