import Verif.Model.Patch
/-
Model of the client and the server, src/libcare-client.c and src/libcare-server.c.
-/
namespace Verif

/-- What the client sends: every argument with its NUL, and one more NUL.  The socket path, if there is one, has been
taken off the arguments.  `none`: the message is longer than MAX_BUFLEN and the client exits.
src/libcare-client.c:49-67 (main). -/
def clientMessage (args : List (List Byte)) : Option (List Byte) :=
  let msg := args.flatMap (· ++ [0#8]) ++ [0#8]
  if msg.length > 16384 then none else some msg

/-- Size of the receive buffer.  src/libcare-server.c:151 (char msg[4096]). -/
def msgSize : Nat := 4096

/-- Number of entries of argv.  src/libcare-server.c:151 (*argv[32]). -/
def argvSize : Nat := 32

/-- What one call of recv meets: a signal (EINTR), at least one and at most `n + 1` bytes, the end of the stream, or
another error. `src/libcare-server.c:156`. -/
inductive RecvEvent where
  | eintr
  | data (n : Nat)
  | eof
  | error

/-- What the server does with one connection. `src/libcare-server.c:149-193` (handle_client). -/
inductive ServerAction where
  /-- `server_execute_cmd` is called with these arguments -/
  | exec (argv : List (List Byte))
  /-- the connection is closed without a command -/
  | closed
  /-- the server waits in recv -/
  | waiting

/-- The condition of the receive loop: go on.  src/libcare-server.c:163-166 (handle_client). -/
def recvMore (buf : List Byte) (off : Nat) : Bool :=
  off < msgSize && (off < 2 || buf.getD (off - 2) 0#8 != 0#8 || buf.getD (off - 1) 0#8 != 0#8)

/-- The receive loop: `stream` is what is still in the socket, `buf` the buffer (all of it), `off` the number of bytes
received.  A read takes at most the free part of the buffer.  With another error than EINTR the code adds -1 to `off`;
when `off` was 0 it is then, as a `size_t`, not less than the size of the buffer, so that the loop ends, and no argument is
looked for before the start of the buffer, as for `off = 0`.
The answer is the buffer and `off` when the loop ends.  In C a `continue` in a do-while loop tests the condition.
src/libcare-server.c:155-166 (handle_client). -/
def recvLoop : List RecvEvent → (stream buf : List Byte) → (off : Nat) → ServerAction ⊕ (List Byte × Nat)
  | [], _, _, _ => .inl .waiting
  | .eintr :: evs, stream, buf, off => if recvMore buf off then recvLoop evs stream buf off else .inr (buf, off)
  | .eof :: _, _, _, _ => .inl .closed
  | .error :: evs, stream, buf, off =>
    if off = 0 then .inr (buf, 0)
    else if recvMore buf (off - 1) then recvLoop evs stream buf (off - 1) else .inr (buf, off - 1)
  | .data n :: evs, stream, buf, off =>
    let chunk := stream.take (min (n + 1) (msgSize - off))
    let buf' := buf.take off ++ chunk ++ buf.drop (off + chunk.length)
    let off' := off + chunk.length
    if chunk = [] then .inl .waiting
    else if recvMore buf' off' then recvLoop evs (stream.drop chunk.length) buf' off' else .inr (buf', off')

/-- The loop that finds the arguments.  The pointer `p` is the rest of the buffer from it; `n` is the number of received
bytes from `p`; `argv` the pointers found.  src/libcare-server.c:173-186 (handle_client). -/
def parseArgv : Nat → List Byte → List (List Byte) → List (List Byte)
  | 0, _, argv => argv
  | _ + 1, [], argv => argv
  | n + 1, c :: p, argv =>
    if argv.length < argvSize then
      if c ≠ 0#8 then parseArgv n p argv
      else
        match p with
        | [] => argv
        | d :: p' => if d = 0#8 then argv else parseArgv (n - 1) p' (argv ++ [d :: p'])
    else argv

/-- `junk` is the content of the buffer at the start.  The arguments that the command gets are the C strings at the
pointers.  src/libcare-server.c:148-193 (handle_client). -/
def handleClient (evs : List RecvEvent) (stream junk : List Byte) : ServerAction :=
  match recvLoop evs stream junk 0 with
  | .inl a => a
  | .inr (buf, off) =>
    if off = msgSize then .closed else .exec ((parseArgv off buf [buf]).map cstr)

end Verif
