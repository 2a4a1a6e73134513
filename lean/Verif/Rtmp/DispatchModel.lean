/-
Model of the two handler loops: `ngx_rtmp_receive_message` (ngx_rtmp_handler.c:830-886) and
`ngx_rtmp_fire_event` (ngx_rtmp.c:1230-1249). A handler transforms the session state `σ` and returns a code.
-/
namespace Verif.Dispatch

def NGX_OK : Int := 0
def NGX_ERROR : Int := -1
def NGX_AGAIN : Int := -2
def NGX_DONE : Int := -4
/-- `NGX_RTMP_MSG_MAX` (ngx_rtmp.h:98) -/
def MSG_MAX : Nat := 22

abbrev Handler (σ : Type) := σ → σ × Int

/-- Loop of `ngx_rtmp_receive_message` (ngx_rtmp_handler.c:866-883). -/
def receiveLoop {σ : Type} : List (Handler σ) → σ → σ × Int
  | [], s => (s, NGX_OK)
  | h :: hs, s =>
    let r := h s
    if r.2 = NGX_ERROR then (r.1, NGX_ERROR)
    else if r.2 = NGX_DONE then (r.1, NGX_OK)
    else receiveLoop hs r.1

/-- `ngx_rtmp_receive_message` (ngx_rtmp_handler.c:830-886): `events t` is the handler array of type `t`. -/
def receiveMessage {σ : Type} (events : Nat → List (Handler σ)) (type : Nat) (s : σ) : σ × Int :=
  if type > MSG_MAX then (s, NGX_OK) else receiveLoop (events type) s

/-- `ngx_rtmp_fire_event` (ngx_rtmp.c:1230-1249); a NULL entry is skipped. -/
def fireEvent {σ : Type} : List (Option (Handler σ)) → σ → σ × Int
  | [], s => (s, NGX_OK)
  | none :: hs, s => fireEvent hs s
  | some h :: hs, s =>
    let r := h s
    if r.2 ≠ NGX_OK then (r.1, NGX_ERROR) else fireEvent hs r.1

end Verif.Dispatch
