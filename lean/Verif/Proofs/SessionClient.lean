/-
The set of the client's session states is closed, and its states have the properties asked for. The checks are made part by part so that no single one needs much memory.
-/
import Verif.Proofs.SessionChecks

namespace Verif.Session

set_option maxRecDepth 100000
set_option Elab.async false

theorem client_start : clientStates.mem (start true) = true := by decide +kernel

theorem clientStateslll_closed : clientStateslll.all (okState clientStates) = true := by decide +kernel

theorem clientStatesllr_closed : clientStatesllr.all (okState clientStates) = true := by decide +kernel

theorem clientStatesll_closed : clientStatesll.all (okState clientStates) = true := Tree.all_node clientStateslll_closed (by decide +kernel) clientStatesllr_closed

theorem clientStateslrl_closed : clientStateslrl.all (okState clientStates) = true := by decide +kernel

theorem clientStateslrr_closed : clientStateslrr.all (okState clientStates) = true := by decide +kernel

theorem clientStateslr_closed : clientStateslr.all (okState clientStates) = true := Tree.all_node clientStateslrl_closed (by decide +kernel) clientStateslrr_closed

theorem clientStatesl_closed : clientStatesl.all (okState clientStates) = true := Tree.all_node clientStatesll_closed (by decide +kernel) clientStateslr_closed

theorem clientStatesrll_closed : clientStatesrll.all (okState clientStates) = true := by decide +kernel

theorem clientStatesrlr_closed : clientStatesrlr.all (okState clientStates) = true := by decide +kernel

theorem clientStatesrl_closed : clientStatesrl.all (okState clientStates) = true := Tree.all_node clientStatesrll_closed (by decide +kernel) clientStatesrlr_closed

theorem clientStatesrrl_closed : clientStatesrrl.all (okState clientStates) = true := by decide +kernel

theorem clientStatesrrr_closed : clientStatesrrr.all (okState clientStates) = true := by decide +kernel

theorem clientStatesrr_closed : clientStatesrr.all (okState clientStates) = true := Tree.all_node clientStatesrrl_closed (by decide +kernel) clientStatesrrr_closed

theorem clientStatesr_closed : clientStatesr.all (okState clientStates) = true := Tree.all_node clientStatesrl_closed (by decide +kernel) clientStatesrr_closed

theorem client_closed : clientStates.all (okState clientStates) = true := Tree.all_node clientStatesl_closed (by decide +kernel) clientStatesr_closed

theorem clientStateslll_timer : clientStateslll.all okTimer = true := by decide +kernel

theorem clientStatesllr_timer : clientStatesllr.all okTimer = true := by decide +kernel

theorem clientStatesll_timer : clientStatesll.all okTimer = true := Tree.all_node clientStateslll_timer (by decide +kernel) clientStatesllr_timer

theorem clientStateslrl_timer : clientStateslrl.all okTimer = true := by decide +kernel

theorem clientStateslrr_timer : clientStateslrr.all okTimer = true := by decide +kernel

theorem clientStateslr_timer : clientStateslr.all okTimer = true := Tree.all_node clientStateslrl_timer (by decide +kernel) clientStateslrr_timer

theorem clientStatesl_timer : clientStatesl.all okTimer = true := Tree.all_node clientStatesll_timer (by decide +kernel) clientStateslr_timer

theorem clientStatesrll_timer : clientStatesrll.all okTimer = true := by decide +kernel

theorem clientStatesrlr_timer : clientStatesrlr.all okTimer = true := by decide +kernel

theorem clientStatesrl_timer : clientStatesrl.all okTimer = true := Tree.all_node clientStatesrll_timer (by decide +kernel) clientStatesrlr_timer

theorem clientStatesrrl_timer : clientStatesrrl.all okTimer = true := by decide +kernel

theorem clientStatesrrr_timer : clientStatesrrr.all okTimer = true := by decide +kernel

theorem clientStatesrr_timer : clientStatesrr.all okTimer = true := Tree.all_node clientStatesrrl_timer (by decide +kernel) clientStatesrrr_timer

theorem clientStatesr_timer : clientStatesr.all okTimer = true := Tree.all_node clientStatesrl_timer (by decide +kernel) clientStatesrr_timer

theorem client_timer : clientStates.all okTimer = true := Tree.all_node clientStatesl_timer (by decide +kernel) clientStatesr_timer

theorem clientStateslll_expiry : clientStateslll.all okExpiry = true := by decide +kernel

theorem clientStatesllr_expiry : clientStatesllr.all okExpiry = true := by decide +kernel

theorem clientStatesll_expiry : clientStatesll.all okExpiry = true := Tree.all_node clientStateslll_expiry (by decide +kernel) clientStatesllr_expiry

theorem clientStateslrl_expiry : clientStateslrl.all okExpiry = true := by decide +kernel

theorem clientStateslrr_expiry : clientStateslrr.all okExpiry = true := by decide +kernel

theorem clientStateslr_expiry : clientStateslr.all okExpiry = true := Tree.all_node clientStateslrl_expiry (by decide +kernel) clientStateslrr_expiry

theorem clientStatesl_expiry : clientStatesl.all okExpiry = true := Tree.all_node clientStatesll_expiry (by decide +kernel) clientStateslr_expiry

theorem clientStatesrll_expiry : clientStatesrll.all okExpiry = true := by decide +kernel

theorem clientStatesrlr_expiry : clientStatesrlr.all okExpiry = true := by decide +kernel

theorem clientStatesrl_expiry : clientStatesrl.all okExpiry = true := Tree.all_node clientStatesrll_expiry (by decide +kernel) clientStatesrlr_expiry

theorem clientStatesrrl_expiry : clientStatesrrl.all okExpiry = true := by decide +kernel

theorem clientStatesrrr_expiry : clientStatesrrr.all okExpiry = true := by decide +kernel

theorem clientStatesrr_expiry : clientStatesrr.all okExpiry = true := Tree.all_node clientStatesrrl_expiry (by decide +kernel) clientStatesrrr_expiry

theorem clientStatesr_expiry : clientStatesr.all okExpiry = true := Tree.all_node clientStatesrl_expiry (by decide +kernel) clientStatesrr_expiry

theorem client_expiry : clientStates.all okExpiry = true := Tree.all_node clientStatesl_expiry (by decide +kernel) clientStatesr_expiry

theorem clientStateslll_once : clientStateslll.all okOnce = true := by decide +kernel

theorem clientStatesllr_once : clientStatesllr.all okOnce = true := by decide +kernel

theorem clientStatesll_once : clientStatesll.all okOnce = true := Tree.all_node clientStateslll_once (by decide +kernel) clientStatesllr_once

theorem clientStateslrl_once : clientStateslrl.all okOnce = true := by decide +kernel

theorem clientStateslrr_once : clientStateslrr.all okOnce = true := by decide +kernel

theorem clientStateslr_once : clientStateslr.all okOnce = true := Tree.all_node clientStateslrl_once (by decide +kernel) clientStateslrr_once

theorem clientStatesl_once : clientStatesl.all okOnce = true := Tree.all_node clientStatesll_once (by decide +kernel) clientStateslr_once

theorem clientStatesrll_once : clientStatesrll.all okOnce = true := by decide +kernel

theorem clientStatesrlr_once : clientStatesrlr.all okOnce = true := by decide +kernel

theorem clientStatesrl_once : clientStatesrl.all okOnce = true := Tree.all_node clientStatesrll_once (by decide +kernel) clientStatesrlr_once

theorem clientStatesrrl_once : clientStatesrrl.all okOnce = true := by decide +kernel

theorem clientStatesrrr_once : clientStatesrrr.all okOnce = true := by decide +kernel

theorem clientStatesrr_once : clientStatesrr.all okOnce = true := Tree.all_node clientStatesrrl_once (by decide +kernel) clientStatesrrr_once

theorem clientStatesr_once : clientStatesr.all okOnce = true := Tree.all_node clientStatesrl_once (by decide +kernel) clientStatesrr_once

theorem client_once : clientStates.all okOnce = true := Tree.all_node clientStatesl_once (by decide +kernel) clientStatesr_once

end Verif.Session
