import Verif.Props.Mirror
import Verif.Props.NewClient
import Verif.Props.RootEnd

/-!
# C87: clients of a repository directory behind a web server
-/

namespace RustTuf.Props
open Spec RustTuf Json Client Formats Keys

section world
variable {O L : Type}

/-- **C87.** A client whose remote repository is such an HTTP repository finds the top-level metadata
that the file system repository holds. -/
theorem C87_web_serves (X : Outside O) (S : Storage L) (h : HttpRepository) (net : Network O)
    (hX : X.remote = h.provider net) (cwd : List Str)
    (f : FileSystem) (hres : f.resolve = resolve cwd) (docs : FileName) (t : Tree)
    (hs : FileServer net h.uri.scheme h.uri.authority docs t h.minBytesPerSecond)
    (hp : PointsAt h cwd f docs) (hagent : net.headerValue h.userAgent = true)
    (ps : TargetPath → Prop) (m : Contents) (hold : Spec.Holds f.name (PlainKey ps) t m) :
    Serves (X.world S) (fun p v => m (.metadata p v)) := by
  have plain : ∀ p, TopName p → PlainName p ∧ '%' ∉ p := by
    rintro p (rfl | rfl | rfl | rfl) <;> exact ⟨⟨by decide, by decide, by decide⟩, by decide⟩
  have ans : ∀ p v l hd (w : O × L), ((X.world S).remote.fetchMetadata p v l hd w).1 =
      webAnswer h net l hd ⟨0, [], none⟩ w.1 (.metadata p v) := by
    intro p v l hd w
    show (match X.remote.fetchMetadata p v l hd w.1 with | (r, o) => (r, (o, w.2))).1 = _
    rw [hX]
    rfl
  constructor
  · intro p v l hd w b ht hb
    obtain ⟨h1, h2⟩ := plain p ht
    have := hold.file (.metadata p v) h1
    rw [hb] at this
    rw [ans]
    exact (C87_web_sees_files_partial h net cwd f hres docs t hs hp hagent l hd ⟨0, [], none⟩ w.1
      (.metadata p v) ⟨h1.1, h2⟩).1 b this
  · intro p v l hd w ht hb
    obtain ⟨h1, h2⟩ := plain p ht
    have := hold.file (.metadata p v) h1
    rw [hb] at this
    rw [ans]
    exact (C87_web_sees_files_partial h net cwd f hres docs t hs hp hagent l hd ⟨0, [], none⟩ w.1
      (.metadata p v) ⟨h1.1, h2⟩).2 this

/-- The same for a target without percent sign. -/
theorem C87_web_serves_target_partial (X : Outside O) (S : Storage L) (h : HttpRepository)
    (net : Network O) (hX : X.remote = h.provider net) (cwd : List Str)
    (f : FileSystem) (hres : f.resolve = resolve cwd) (docs : FileName) (t : Tree)
    (hs : FileServer net h.uri.scheme h.uri.authority docs t h.minBytesPerSecond)
    (hp : PointsAt h cwd f docs) (hagent : net.headerValue h.userAgent = true)
    (name : TargetPath) (hk : WebKey (.target name)) (content : Bytes)
    (hf : t (f.name (.target name)) = some (.file content)) : ServesTarget (X.world S) name content := by
  intro d w
  have : ((X.world S).remote.fetchTarget name d w).1 =
      webAnswer h net none none d w.1 (.target name) := by
    show (match X.remote.fetchTarget name d w.1 with | (r, o) => (r, (o, w.2))).1 = _
    rw [hX]
    rfl
  rw [this]
  exact (C87_web_sees_files_partial h net cwd f hres docs t hs hp hagent none none d w.1
    (.target name) hk).1 content hf

/-- What a request of an HTTP repository leads to, with the reader that is made of the body. -/
def answerOf (h : HttpRepository) (net : Network O) (o : O) (uri : Uri) : Except Err (Nat × List Ev) :=
  if net.headerValue h.userAgent = true then
    match (net.request uri h.userAgent o).1 with
    | none => .error .hyper
    | some (code, body) => .ok (code, h.reader body)
  else .error .http

/-- The hypothesis of C75 about HTTP repositories holds for the model of the HTTP repository. -/
theorem C87_over_http (X : Outside O) (S : Storage L) (h : HttpRepository) (net : Network O)
    (hX : X.remote = h.provider net) :
    OverHttp (X.world S) (fun w => answerOf h net w.1) h.uri h.metadataPrefix where
  answer p v m hd w := by
    have : ((X.world S).remote.fetchMetadata p v m hd w).1 =
        ((h.provider net).fetchMetadata p v m hd w.1).1 := by
      rw [← hX]
      rfl
    rw [this]
    unfold HttpRepository.provider HttpRepository.get httpFetch answerOf
    dsimp only
    cases extendUri h.uri h.metadataPrefix (MetadataPath.components p v) with
    | error e => rfl
    | ok uri =>
      dsimp only
      cases net.headerValue h.userAgent with
      | false => rfl
      | true =>
        simp only [Bool.not_true, Bool.false_eq_true, if_false, if_true]
        rcases net.request uri h.userAgent w.1 with ⟨_ | ⟨code, body⟩, o'⟩
        · rfl
        · dsimp only
          cases statusResult code <;> rfl
  transport w uri := by
    unfold answerOf
    split
    · split <;> exact fun h => nomatch h
    · exact fun h => nomatch h
  body w uri code evs he hb := by
    unfold answerOf at he
    split at he
    · split at he
      · cases he
      · cases he
        rcases C87_body_errors h _ _ hb with h | h <;> cases h
    · cases he

/-- **C87.** A client with an HTTP repository only takes its root for the newest one if the server has
said 404, during this call, to a request for the next one. -/
theorem C87_newest_root_was_asked_for (E : Env) (hE : Decoders E) (D : Digest) (cfg : Config)
    (X : Outside O) (S : Storage L) (h : HttpRepository) (net : Network O)
    (hX : X.remote = h.provider net) (s s' : St (O × L)) (b : Bool)
    (hv : s.tuf.root.version ≤ 4294967295) (hu : update E D (X.world S) cfg s = (.ok b, s')) :
    ∃ uri, extendUri h.uri h.metadataPrefix (MetadataPath.components "root".toList
        (.number ((s'.tuf.root.version + 1) % 4294967296))) = .ok uri ∧
      During (X.world S) s.io.w s'.io.w fun w => ∃ body, (net.request uri h.userAgent w.1).1 = some (404, body) := by
  obtain ⟨uri, h1, w, hw1, ⟨evs, h2⟩, hw2⟩ := C75_http_next_root_404 E hE D (X.world S) cfg s s' b hv _ _ _
    (C87_over_http X S h net hX) hu
  unfold answerOf at h2
  split at h2
  · split at h2
    · cases h2
    · rename_i code body hr
      cases h2
      exact ⟨uri, h1, w, hw1, ⟨body, hr⟩, hw2⟩
  · cases h2

/-- The constructor and `update` only use plain names of local files. -/
theorem fs_update (E : Env) (D : Digest) (cfg : Config) (X : Outside O) (f : FileSystem)
    (ps : TargetPath → Prop) (ha : Apart f.name (PlainKey ps)) {s : St (O × Tree)} {s' : St (O × Contents)}
    (h : StRel (PairRel (Spec.Holds f.name (PlainKey ps))) s s') :
    Same (StRel (PairRel (Spec.Holds f.name (PlainKey ps))))
      (update E D (X.world f.storage) cfg s) (update E D (X.world mapStorage) cfg s') := by
  refine ((fs_agree X f ps ha).update D (ok := fun _ => True) E cfg ?_).same s s' h fun _ _ => trivial
  have plain : ∀ r : Role, PlainName (MetadataPath.fromRole r) := by
    intro r
    cases r <;> exact ⟨by decide, by decide, by decide⟩
  intro e he _
  cases e with
  | fetch src p v m hash =>
    obtain ⟨r, rfl⟩ := he
    cases src with
    | remote => trivial
    | cache => exact plain r
  | store p v raw =>
    obtain ⟨r, rfl⟩ := he
    exact plain r
  | storeTarget p => exact he.elim
  | _ => trivial

end world

section whole
variable {O : Type} (rg : Ring) (verify : Scheme → Bytes → Bytes → Bytes → Bool) (F : FloatLib)
  (H : Bytes → Bytes) (order : Map KeyId Signature → List (KeyId × Signature))
  (perm : ∀ m, (order m).Perm m)

/-- **C87.** The whole life of a target with all the parts of the crate. The author builds, signs and
stores metadata and the target in a file system repository, which a web server hands out. A client with
an HTTP repository that points there and with a new file system repository of its own is installed with
nothing but the first root or keys for it, updates, and asks for the target. Everything succeeds: the
writer gets exactly the author's bytes, and a download puts exactly these bytes into the client's
file. Only for a target whose name has no percent sign, see `C87_percent_is_misread`. -/
theorem C87_from_disk_to_disk_partial (L : RingLaw rg verify) (hH : ∀ b, (H b).length = 32) (D : Digest) (cfg : Config)
    -- the author's directory
    (cwd : List Str) (f : FileSystem) (hres : f.resolve = resolve cwd) (ps : TargetPath → Prop)
    (tree : Tree) (m : Contents) (hold : Spec.Holds f.name (PlainKey ps) tree m)
    -- the web server and the client's view of it
    (h : HttpRepository) (net : Network O) (docs : FileName)
    (hs : FileServer net h.uri.scheme h.uri.authority docs tree h.minBytesPerSecond)
    (hp : PointsAt h cwd f docs) (hagent : net.headerValue h.userAgent = true)
    -- the client's directory and its surroundings
    (f' : FileSystem) (ps' : TargetPath → Prop) (ha' : Apart f'.name (PlainKey ps')) (tree' : Tree)
    (hempty : Spec.Holds f'.name (PlainKey ps') tree' (fun _ => none))
    (X : Outside O) (hX : X.remote = h.provider net) (hrel : X.Reliable)
    -- the release
    (x r : RootMetadata) (hx : BuiltRoot F H x)
    (hrot : Rotations rg F H cfg (fun p v => m (.metadata p v)) x r)
    (cs : List TargetsCall) (ta : TargetsMetadata) (sta : SignedMetadata JsonValue)
    (sn : SnapshotMetadata) (ssn : SignedMetadata JsonValue) (ts : TimestampMetadata)
    (sts : SignedMetadata JsonValue)
    (hrelease : FullRelease rg F H D cfg (fun p v => m (.metadata p v)) r cs ta sta sn ssn ts sts)
    (hclk : ∀ e ∈ [r.expires, ts.expires, sn.expires, ta.expires], ∀ o place,
      (X.clock o).1 place < wholeSecond e)
    -- the target
    (path name : TargetPath) (virt : VirtualTargetPath) (src : List Ev) (algs : List HashAlg)
    (content : Bytes) (hlast : LastAbout TargetsCall.path? cs virt (.target virt src algs))
    (hsrc : delivered src = (content, .eof))
    (hnew : TargetPath.new path = .ok path) (hvirt : cfg.realToVirtual path = .ok virt)
    (hname : TargetFile r (D (usedAlg algs) content) path name) (hps : ps name)
    (hweb : WebKey (.target name)) (hstored : m (.target name) = some content)
    -- the installation
    (start : Start) (hstart : Installs rg F H cfg (fun p v => m (.metadata p v)) x start)
    (o : O) (log : List LogEntry) :
    ∃ t io' u s1,
      construct (jsonEnv (lib F H) verify order perm) D (X.world f'.storage) cfg start ⟨(o, tree'), log⟩ =
        (.ok t, io') ∧
      update (jsonEnv (lib F H) verify order perm) D (X.world f'.storage) cfg ⟨t, io'⟩ = (.ok u, s1) ∧
      (Accepts (X.world f'.storage) → ∃ s2 l,
        exec (jsonEnv (lib F H) verify order perm) D (X.world f'.storage) cfg (.fetchTargetToWriter path) s1 =
          (.ok .done, s2) ∧ s2.io.log = s1.io.log ++ l ∧ written l = content) ∧
      ((∀ o, (X.targetFault o).1 = none) → ps' path → ∃ s2,
        exec (jsonEnv (lib F H) verify order perm) D (X.world f'.storage) cfg (.fetchTarget path) s1 =
          (.ok .done, s2) ∧ s2.io.w.2 (f'.name (.target path)) = some (.file content)) := by
  obtain ⟨t, io1, u, s1, e1, e2, hl⟩ := C85_new_client_knows_target rg verify F H order perm L hH D
    (X.world mapStorage) cfg (map_faithful X hrel) _
    (C87_web_serves X mapStorage h net hX cwd f hres docs tree hs hp hagent ps m hold) x r hx hrot cs ta sta
    sn ssn ts sts hrelease
    ⟨fun w => hclk _ (by simp) w.1, fun w => hclk _ (by simp) w.1, fun w => hclk _ (by simp) w.1,
      fun w => hclk _ (by simp) w.1⟩ path name virt src algs content hlast hsrc hvirt hname start hstart
    ⟨(o, fun _ => none), log⟩ (fun _ _ => rfl)
  have hc := fs_construct (jsonEnv (lib F H) verify order perm) D cfg X f' ps' ha' start
    (io := ⟨(o, tree'), log⟩) (io' := ⟨(o, fun _ => none), log⟩) ⟨rfl, rfl, hempty⟩
  rw [e1] at hc
  cases hc1 : construct (jsonEnv (lib F H) verify order perm) D (X.world f'.storage) cfg start
      ⟨(o, tree'), log⟩ with
  | mk res io' =>
    rw [hc1] at hc
    obtain ⟨g1, g2⟩ := hc
    simp only at g1 g2
    subst g1
    have hu := fs_update (jsonEnv (lib F H) verify order perm) D cfg X f' ps' ha' (s := ⟨t, io'⟩)
      (s' := ⟨t, io1⟩) ⟨rfl, g2⟩
    rw [e2] at hu
    cases hu1 : update (jsonEnv (lib F H) verify order perm) D (X.world f'.storage) cfg ⟨t, io'⟩ with
    | mk res s =>
      rw [hu1] at hu
      obtain ⟨g3, g4, g5, g6, g7⟩ := hu
      simp only at g3 g4 g5 g6 g7
      subst g3
      rw [← g4] at hl
      have hserve : ServesTarget (X.world f'.storage) name content :=
        C87_web_serves_target_partial X f'.storage h net hX cwd f hres docs tree hs hp hagent name hweb content
          (by rw [hold.file (.target name) hps, hstored]; rfl)
      refine ⟨t, io', u, s, rfl, hu1, fun hwrite => ?_, fun hfault hpath => ?_⟩
      · obtain ⟨s2, l, k1, -, k3, k4⟩ := C74_listed_target_is_written (jsonEnv (lib F H) verify order perm) D
          (X.world f'.storage) cfg path name content s hnew hl hserve hwrite
        exact ⟨s2, l, k1, k3, k4⟩
      · obtain ⟨h1, d, a, h2, h3, h4, h5, h6⟩ := hl
        obtain ⟨stream, s2, k1, -, k3, k4⟩ := fetchTargetReader_honest
          (E := jsonEnv (lib F H) verify order perm) hnew h1 h2 h3 h4 h5 h6 (hserve d s.io.w)
        have hw : s2.io.w.2 = s.io.w.2 := by rw [k4]; rfl
        have hput := holds_store ha' (k := .target path) g7 hpath none stream
        unfold Contents.store at hput
        rw [k3] at hput
        dsimp only at hput
        have hq : (X.world f'.storage).storeTarget stream path s2.io.w =
            (.ok (), ((X.targetFault s2.io.w.1).2,
              (s.io.w.2.storeFile none (f'.name (.target path)) stream).2)) := by
          show (match X.targetFault s2.io.w.1 with
            | (fault, o) => match s2.io.w.2.storeFile fault (f'.name (.target path)) stream with
              | (r, l) => (r, (o, l))) = _
          have hf := hfault s2.io.w.1
          cases hx : X.targetFault s2.io.w.1 with
          | mk a b =>
            rw [hx] at hf
            simp only at hf
            subst hf
            dsimp only
            rw [hw]
            cases hy : s.io.w.2.storeFile none (f'.name (.target path)) stream with
            | mk r l =>
              rw [hy] at hput
              rw [show r = .ok () from hput.1]
        refine ⟨⟨s2.tuf, ⟨((X.targetFault s2.io.w.1).2,
          (s.io.w.2.storeFile none (f'.name (.target path)) stream).2), s2.io.log ++ [.storeTarget path]⟩⟩,
          ?_, ?_⟩
        · show M.bind (fetchTarget _ D _ cfg path) _ s = _
          have : fetchTarget (jsonEnv (lib F H) verify order perm) D (X.world f'.storage) cfg path s =
              (.ok (), ⟨s2.tuf, ⟨((X.targetFault s2.io.w.1).2,
                (s.io.w.2.storeFile none (f'.name (.target path)) stream).2),
                s2.io.log ++ [.storeTarget path]⟩⟩) := by
            show M.bind _ _ s = _
            simp only [M.bind, k1, lift, storeTarget, Bind.bind, Io.note, Io.call, hq]
          simp only [M.bind, this]
          rfl
        · rw [hput.2.file (.target path) hpath]
          simp [Contents.put]

/-- **C87.** The same from the first opened directory on: the author's and the client's repositories are
opened with `FileSystemRepository::new` where there is nothing yet, and the author makes any calls with
plain names, of which only the contents at the end matter. -/
theorem C87_from_upload_to_disk_partial (L : RingLaw rg verify) (hH : ∀ b, (H b).length = 32) (D : Digest)
    (cfg : Config)
    -- the author's directory
    (cwd : List Str) (dir : Str) (disk opened : Tree) (f : FileSystem)
    (hopen : FileSystem.new (resolve cwd) dir disk = .ok (f, opened))
    (hnone : ∀ n, resolve cwd dir <+: n → n ≠ resolve cwd dir → disk n = none)
    (ps : TargetPath → Prop) (hps : PlainTargets ps) (uploads : List StorageCall)
    (hkeys : ∀ c ∈ uploads, PlainKey ps c.key)
    (m : Contents) (hm : m = (mapStorage.calls (fun _ => none) uploads).2)
    -- the web server and the client's view of it
    (h : HttpRepository) (net : Network O) (docs : FileName)
    (hs : FileServer net h.uri.scheme h.uri.authority docs (f.storage.calls opened uploads).2
      h.minBytesPerSecond)
    (hp : PointsAt h cwd f docs) (hagent : net.headerValue h.userAgent = true)
    -- the client's directory and its surroundings
    (cwd' : List Str) (dir' : Str) (disk' opened' : Tree) (f' : FileSystem)
    (hopen' : FileSystem.new (resolve cwd') dir' disk' = .ok (f', opened'))
    (hnone' : ∀ n, resolve cwd' dir' <+: n → n ≠ resolve cwd' dir' → disk' n = none)
    (X : Outside O) (hX : X.remote = h.provider net) (hrel : X.Reliable)
    -- the release
    (x r : RootMetadata) (hx : BuiltRoot F H x)
    (hrot : Rotations rg F H cfg (fun p v => m (.metadata p v)) x r)
    (cs : List TargetsCall) (ta : TargetsMetadata) (sta : SignedMetadata JsonValue)
    (sn : SnapshotMetadata) (ssn : SignedMetadata JsonValue) (ts : TimestampMetadata)
    (sts : SignedMetadata JsonValue)
    (hrelease : FullRelease rg F H D cfg (fun p v => m (.metadata p v)) r cs ta sta sn ssn ts sts)
    (hclk : ∀ e ∈ [r.expires, ts.expires, sn.expires, ta.expires], ∀ o place,
      (X.clock o).1 place < wholeSecond e)
    -- the target
    (path name : TargetPath) (virt : VirtualTargetPath) (src : List Ev) (algs : List HashAlg)
    (content : Bytes) (hlast : LastAbout TargetsCall.path? cs virt (.target virt src algs))
    (hsrc : delivered src = (content, .eof))
    (hnew : TargetPath.new path = .ok path) (hnonempty : [] ∉ pieces path)
    (hvirt : cfg.realToVirtual path = .ok virt)
    (hname : TargetFile r (D (usedAlg algs) content) path name) (hpsn : ps name)
    (hpercent : '%' ∉ name) (hstored : m (.target name) = some content)
    -- the installation
    (start : Start) (hstart : Installs rg F H cfg (fun p v => m (.metadata p v)) x start)
    (o : O) (log : List LogEntry) :
    ∃ t io' u s1,
      construct (jsonEnv (lib F H) verify order perm) D (X.world f'.storage) cfg start ⟨(o, opened'), log⟩ =
        (.ok t, io') ∧
      update (jsonEnv (lib F H) verify order perm) D (X.world f'.storage) cfg ⟨t, io'⟩ = (.ok u, s1) ∧
      (Accepts (X.world f'.storage) → ∃ s2 l,
        exec (jsonEnv (lib F H) verify order perm) D (X.world f'.storage) cfg (.fetchTargetToWriter path) s1 =
          (.ok .done, s2) ∧ s2.io.log = s1.io.log ++ l ∧ written l = content) ∧
      ((∀ o, (X.targetFault o).1 = none) → ∃ s2,
        exec (jsonEnv (lib F H) verify order perm) D (X.world f'.storage) cfg (.fetchTarget path) s1 =
          (.ok .done, s2) ∧ s2.io.w.2 (f'.name (.target path)) = some (.file content)) := by
  obtain ⟨ha, h0⟩ := C86_new_is_empty cwd dir disk opened f hopen hnone ps hps
  have hplain' : PlainTargets (fun p => p = path) :=
    ⟨fun p hp => by subst hp; exact ⟨hnew, hnonempty⟩, fun p q hp hq _ => hp.trans hq.symm⟩
  obtain ⟨ha', h0'⟩ := C86_new_is_empty cwd' dir' disk' opened' f' hopen' hnone' _ hplain'
  have hold := (C86_file_system_is_a_map f _ ha opened _ h0 uploads hkeys).2
  rw [← hm] at hold
  obtain ⟨t, io', u, s1, e1, e2, e3, e4⟩ := C87_from_disk_to_disk_partial rg verify F H order perm L hH D
    cfg cwd f (by rw [(build_split hopen).1]) ps _ m hold h net docs hs hp hagent f' _ ha' opened' h0' X hX
    hrel x r hx hrot cs ta sta sn ssn ts sts hrelease hclk path name virt src algs content hlast hsrc hnew
    hvirt hname hpsn ⟨(hps.accepted name hpsn).1, hpercent⟩ hstored start hstart o log
  exact ⟨t, io', u, s1, e1, e2, e3, fun hf => e4 hf rfl⟩

end whole

end RustTuf.Props
