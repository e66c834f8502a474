import Verif.Spec.Restart

/-!
# Specification of restarts that are in time
-/

namespace RustTuf.Spec

/-- What may become of a client that trusts `t`: it executes calls, and it is restarted, but not
after the root or the timestamp it trusts has expired. It may also be stopped during a call, after
any number of its writes, and restarted before the root, the timestamp it trusted before the call
or the one it trusted when it was stopped has expired. -/
inductive InTime {W : Type} (E : Env) (D : Digest) (cfg : Config) (file : W → Files) (raw : Bytes)
    (t : Tuf) (io : Io W) : Tuf → Io W → Prop
  | here : InTime E D cfg file raw t io t io
  | call (R : World W) (t1 t2 : Tuf) (io1 io2 : Io W) (c : Client.Call)
      (r : Except Err Client.Reply) : InTime E D cfg file raw t io t1 io1 → Faithful R file →
      Client.exec E D R cfg c ⟨t1, io1⟩ = (r, ⟨t2, io2⟩) → InTime E D cfg file raw t io t2 io2
  | restart (R : World W) (t1 t2 : Tuf) (io1 io2 : Io W) : InTime E D cfg file raw t io t1 io1 →
      Faithful R file → (∀ w i, (R.clock w).1 i < t1.root.expires) →
      (∀ w i ts, t1.timestamp = some ts → (R.clock w).1 i < ts.expires) →
      Client.construct E D R cfg (.trustedRoot raw) io1 = (.ok t2, io2) →
      InTime E D cfg file raw t io t2 io2
  | crash (Rc R : World W) (t1 t2 : Tuf) (io1 io2 : Io W) (c : Client.Call)
      (r : Except Err Client.Reply) (s : St W) : InTime E D cfg file raw t io t1 io1 →
      Lossy Rc file → Client.exec E D Rc cfg c ⟨t1, io1⟩ = (r, s) → Faithful R file →
      (∀ w i, (R.clock w).1 i < t1.root.expires) →
      (∀ w i ts, t1.timestamp = some ts ∨ s.tuf.timestamp = some ts → (R.clock w).1 i < ts.expires) →
      Client.construct E D R cfg (.trustedRoot raw) s.io = (.ok t2, io2) →
      InTime E D cfg file raw t io t2 io2

end RustTuf.Spec
