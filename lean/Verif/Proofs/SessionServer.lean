/-
The set of the server's session states is closed, and its states have the properties asked for. The checks are made part by part so that no single one needs much memory.
-/
import Verif.Proofs.SessionChecks

namespace Verif.Session

set_option maxRecDepth 100000
set_option Elab.async false

theorem server_start : serverStates.mem (start false) = true := by decide +kernel

theorem serverStatesllll_closed : serverStatesllll.all (okState serverStates) = true := by decide +kernel

theorem serverStateslllr_closed : serverStateslllr.all (okState serverStates) = true := by decide +kernel

theorem serverStateslll_closed : serverStateslll.all (okState serverStates) = true := Tree.all_node serverStatesllll_closed (by decide +kernel) serverStateslllr_closed

theorem serverStatesllrl_closed : serverStatesllrl.all (okState serverStates) = true := by decide +kernel

theorem serverStatesllrr_closed : serverStatesllrr.all (okState serverStates) = true := by decide +kernel

theorem serverStatesllr_closed : serverStatesllr.all (okState serverStates) = true := Tree.all_node serverStatesllrl_closed (by decide +kernel) serverStatesllrr_closed

theorem serverStatesll_closed : serverStatesll.all (okState serverStates) = true := Tree.all_node serverStateslll_closed (by decide +kernel) serverStatesllr_closed

theorem serverStateslrll_closed : serverStateslrll.all (okState serverStates) = true := by decide +kernel

theorem serverStateslrlr_closed : serverStateslrlr.all (okState serverStates) = true := by decide +kernel

theorem serverStateslrl_closed : serverStateslrl.all (okState serverStates) = true := Tree.all_node serverStateslrll_closed (by decide +kernel) serverStateslrlr_closed

theorem serverStateslrrl_closed : serverStateslrrl.all (okState serverStates) = true := by decide +kernel

theorem serverStateslrrr_closed : serverStateslrrr.all (okState serverStates) = true := by decide +kernel

theorem serverStateslrr_closed : serverStateslrr.all (okState serverStates) = true := Tree.all_node serverStateslrrl_closed (by decide +kernel) serverStateslrrr_closed

theorem serverStateslr_closed : serverStateslr.all (okState serverStates) = true := Tree.all_node serverStateslrl_closed (by decide +kernel) serverStateslrr_closed

theorem serverStatesl_closed : serverStatesl.all (okState serverStates) = true := Tree.all_node serverStatesll_closed (by decide +kernel) serverStateslr_closed

theorem serverStatesrlll_closed : serverStatesrlll.all (okState serverStates) = true := by decide +kernel

theorem serverStatesrllr_closed : serverStatesrllr.all (okState serverStates) = true := by decide +kernel

theorem serverStatesrll_closed : serverStatesrll.all (okState serverStates) = true := Tree.all_node serverStatesrlll_closed (by decide +kernel) serverStatesrllr_closed

theorem serverStatesrlrl_closed : serverStatesrlrl.all (okState serverStates) = true := by decide +kernel

theorem serverStatesrlrr_closed : serverStatesrlrr.all (okState serverStates) = true := by decide +kernel

theorem serverStatesrlr_closed : serverStatesrlr.all (okState serverStates) = true := Tree.all_node serverStatesrlrl_closed (by decide +kernel) serverStatesrlrr_closed

theorem serverStatesrl_closed : serverStatesrl.all (okState serverStates) = true := Tree.all_node serverStatesrll_closed (by decide +kernel) serverStatesrlr_closed

theorem serverStatesrrll_closed : serverStatesrrll.all (okState serverStates) = true := by decide +kernel

theorem serverStatesrrlr_closed : serverStatesrrlr.all (okState serverStates) = true := by decide +kernel

theorem serverStatesrrl_closed : serverStatesrrl.all (okState serverStates) = true := Tree.all_node serverStatesrrll_closed (by decide +kernel) serverStatesrrlr_closed

theorem serverStatesrrrl_closed : serverStatesrrrl.all (okState serverStates) = true := by decide +kernel

theorem serverStatesrrrr_closed : serverStatesrrrr.all (okState serverStates) = true := by decide +kernel

theorem serverStatesrrr_closed : serverStatesrrr.all (okState serverStates) = true := Tree.all_node serverStatesrrrl_closed (by decide +kernel) serverStatesrrrr_closed

theorem serverStatesrr_closed : serverStatesrr.all (okState serverStates) = true := Tree.all_node serverStatesrrl_closed (by decide +kernel) serverStatesrrr_closed

theorem serverStatesr_closed : serverStatesr.all (okState serverStates) = true := Tree.all_node serverStatesrl_closed (by decide +kernel) serverStatesrr_closed

theorem server_closed : serverStates.all (okState serverStates) = true := Tree.all_node serverStatesl_closed (by decide +kernel) serverStatesr_closed

theorem serverStatesllll_timer : serverStatesllll.all okTimer = true := by decide +kernel

theorem serverStateslllr_timer : serverStateslllr.all okTimer = true := by decide +kernel

theorem serverStateslll_timer : serverStateslll.all okTimer = true := Tree.all_node serverStatesllll_timer (by decide +kernel) serverStateslllr_timer

theorem serverStatesllrl_timer : serverStatesllrl.all okTimer = true := by decide +kernel

theorem serverStatesllrr_timer : serverStatesllrr.all okTimer = true := by decide +kernel

theorem serverStatesllr_timer : serverStatesllr.all okTimer = true := Tree.all_node serverStatesllrl_timer (by decide +kernel) serverStatesllrr_timer

theorem serverStatesll_timer : serverStatesll.all okTimer = true := Tree.all_node serverStateslll_timer (by decide +kernel) serverStatesllr_timer

theorem serverStateslrll_timer : serverStateslrll.all okTimer = true := by decide +kernel

theorem serverStateslrlr_timer : serverStateslrlr.all okTimer = true := by decide +kernel

theorem serverStateslrl_timer : serverStateslrl.all okTimer = true := Tree.all_node serverStateslrll_timer (by decide +kernel) serverStateslrlr_timer

theorem serverStateslrrl_timer : serverStateslrrl.all okTimer = true := by decide +kernel

theorem serverStateslrrr_timer : serverStateslrrr.all okTimer = true := by decide +kernel

theorem serverStateslrr_timer : serverStateslrr.all okTimer = true := Tree.all_node serverStateslrrl_timer (by decide +kernel) serverStateslrrr_timer

theorem serverStateslr_timer : serverStateslr.all okTimer = true := Tree.all_node serverStateslrl_timer (by decide +kernel) serverStateslrr_timer

theorem serverStatesl_timer : serverStatesl.all okTimer = true := Tree.all_node serverStatesll_timer (by decide +kernel) serverStateslr_timer

theorem serverStatesrlll_timer : serverStatesrlll.all okTimer = true := by decide +kernel

theorem serverStatesrllr_timer : serverStatesrllr.all okTimer = true := by decide +kernel

theorem serverStatesrll_timer : serverStatesrll.all okTimer = true := Tree.all_node serverStatesrlll_timer (by decide +kernel) serverStatesrllr_timer

theorem serverStatesrlrl_timer : serverStatesrlrl.all okTimer = true := by decide +kernel

theorem serverStatesrlrr_timer : serverStatesrlrr.all okTimer = true := by decide +kernel

theorem serverStatesrlr_timer : serverStatesrlr.all okTimer = true := Tree.all_node serverStatesrlrl_timer (by decide +kernel) serverStatesrlrr_timer

theorem serverStatesrl_timer : serverStatesrl.all okTimer = true := Tree.all_node serverStatesrll_timer (by decide +kernel) serverStatesrlr_timer

theorem serverStatesrrll_timer : serverStatesrrll.all okTimer = true := by decide +kernel

theorem serverStatesrrlr_timer : serverStatesrrlr.all okTimer = true := by decide +kernel

theorem serverStatesrrl_timer : serverStatesrrl.all okTimer = true := Tree.all_node serverStatesrrll_timer (by decide +kernel) serverStatesrrlr_timer

theorem serverStatesrrrl_timer : serverStatesrrrl.all okTimer = true := by decide +kernel

theorem serverStatesrrrr_timer : serverStatesrrrr.all okTimer = true := by decide +kernel

theorem serverStatesrrr_timer : serverStatesrrr.all okTimer = true := Tree.all_node serverStatesrrrl_timer (by decide +kernel) serverStatesrrrr_timer

theorem serverStatesrr_timer : serverStatesrr.all okTimer = true := Tree.all_node serverStatesrrl_timer (by decide +kernel) serverStatesrrr_timer

theorem serverStatesr_timer : serverStatesr.all okTimer = true := Tree.all_node serverStatesrl_timer (by decide +kernel) serverStatesrr_timer

theorem server_timer : serverStates.all okTimer = true := Tree.all_node serverStatesl_timer (by decide +kernel) serverStatesr_timer

theorem serverStatesllll_expiry : serverStatesllll.all okExpiry = true := by decide +kernel

theorem serverStateslllr_expiry : serverStateslllr.all okExpiry = true := by decide +kernel

theorem serverStateslll_expiry : serverStateslll.all okExpiry = true := Tree.all_node serverStatesllll_expiry (by decide +kernel) serverStateslllr_expiry

theorem serverStatesllrl_expiry : serverStatesllrl.all okExpiry = true := by decide +kernel

theorem serverStatesllrr_expiry : serverStatesllrr.all okExpiry = true := by decide +kernel

theorem serverStatesllr_expiry : serverStatesllr.all okExpiry = true := Tree.all_node serverStatesllrl_expiry (by decide +kernel) serverStatesllrr_expiry

theorem serverStatesll_expiry : serverStatesll.all okExpiry = true := Tree.all_node serverStateslll_expiry (by decide +kernel) serverStatesllr_expiry

theorem serverStateslrll_expiry : serverStateslrll.all okExpiry = true := by decide +kernel

theorem serverStateslrlr_expiry : serverStateslrlr.all okExpiry = true := by decide +kernel

theorem serverStateslrl_expiry : serverStateslrl.all okExpiry = true := Tree.all_node serverStateslrll_expiry (by decide +kernel) serverStateslrlr_expiry

theorem serverStateslrrl_expiry : serverStateslrrl.all okExpiry = true := by decide +kernel

theorem serverStateslrrr_expiry : serverStateslrrr.all okExpiry = true := by decide +kernel

theorem serverStateslrr_expiry : serverStateslrr.all okExpiry = true := Tree.all_node serverStateslrrl_expiry (by decide +kernel) serverStateslrrr_expiry

theorem serverStateslr_expiry : serverStateslr.all okExpiry = true := Tree.all_node serverStateslrl_expiry (by decide +kernel) serverStateslrr_expiry

theorem serverStatesl_expiry : serverStatesl.all okExpiry = true := Tree.all_node serverStatesll_expiry (by decide +kernel) serverStateslr_expiry

theorem serverStatesrlll_expiry : serverStatesrlll.all okExpiry = true := by decide +kernel

theorem serverStatesrllr_expiry : serverStatesrllr.all okExpiry = true := by decide +kernel

theorem serverStatesrll_expiry : serverStatesrll.all okExpiry = true := Tree.all_node serverStatesrlll_expiry (by decide +kernel) serverStatesrllr_expiry

theorem serverStatesrlrl_expiry : serverStatesrlrl.all okExpiry = true := by decide +kernel

theorem serverStatesrlrr_expiry : serverStatesrlrr.all okExpiry = true := by decide +kernel

theorem serverStatesrlr_expiry : serverStatesrlr.all okExpiry = true := Tree.all_node serverStatesrlrl_expiry (by decide +kernel) serverStatesrlrr_expiry

theorem serverStatesrl_expiry : serverStatesrl.all okExpiry = true := Tree.all_node serverStatesrll_expiry (by decide +kernel) serverStatesrlr_expiry

theorem serverStatesrrll_expiry : serverStatesrrll.all okExpiry = true := by decide +kernel

theorem serverStatesrrlr_expiry : serverStatesrrlr.all okExpiry = true := by decide +kernel

theorem serverStatesrrl_expiry : serverStatesrrl.all okExpiry = true := Tree.all_node serverStatesrrll_expiry (by decide +kernel) serverStatesrrlr_expiry

theorem serverStatesrrrl_expiry : serverStatesrrrl.all okExpiry = true := by decide +kernel

theorem serverStatesrrrr_expiry : serverStatesrrrr.all okExpiry = true := by decide +kernel

theorem serverStatesrrr_expiry : serverStatesrrr.all okExpiry = true := Tree.all_node serverStatesrrrl_expiry (by decide +kernel) serverStatesrrrr_expiry

theorem serverStatesrr_expiry : serverStatesrr.all okExpiry = true := Tree.all_node serverStatesrrl_expiry (by decide +kernel) serverStatesrrr_expiry

theorem serverStatesr_expiry : serverStatesr.all okExpiry = true := Tree.all_node serverStatesrl_expiry (by decide +kernel) serverStatesrr_expiry

theorem server_expiry : serverStates.all okExpiry = true := Tree.all_node serverStatesl_expiry (by decide +kernel) serverStatesr_expiry

theorem serverStatesllll_once : serverStatesllll.all okOnce = true := by decide +kernel

theorem serverStateslllr_once : serverStateslllr.all okOnce = true := by decide +kernel

theorem serverStateslll_once : serverStateslll.all okOnce = true := Tree.all_node serverStatesllll_once (by decide +kernel) serverStateslllr_once

theorem serverStatesllrl_once : serverStatesllrl.all okOnce = true := by decide +kernel

theorem serverStatesllrr_once : serverStatesllrr.all okOnce = true := by decide +kernel

theorem serverStatesllr_once : serverStatesllr.all okOnce = true := Tree.all_node serverStatesllrl_once (by decide +kernel) serverStatesllrr_once

theorem serverStatesll_once : serverStatesll.all okOnce = true := Tree.all_node serverStateslll_once (by decide +kernel) serverStatesllr_once

theorem serverStateslrll_once : serverStateslrll.all okOnce = true := by decide +kernel

theorem serverStateslrlr_once : serverStateslrlr.all okOnce = true := by decide +kernel

theorem serverStateslrl_once : serverStateslrl.all okOnce = true := Tree.all_node serverStateslrll_once (by decide +kernel) serverStateslrlr_once

theorem serverStateslrrl_once : serverStateslrrl.all okOnce = true := by decide +kernel

theorem serverStateslrrr_once : serverStateslrrr.all okOnce = true := by decide +kernel

theorem serverStateslrr_once : serverStateslrr.all okOnce = true := Tree.all_node serverStateslrrl_once (by decide +kernel) serverStateslrrr_once

theorem serverStateslr_once : serverStateslr.all okOnce = true := Tree.all_node serverStateslrl_once (by decide +kernel) serverStateslrr_once

theorem serverStatesl_once : serverStatesl.all okOnce = true := Tree.all_node serverStatesll_once (by decide +kernel) serverStateslr_once

theorem serverStatesrlll_once : serverStatesrlll.all okOnce = true := by decide +kernel

theorem serverStatesrllr_once : serverStatesrllr.all okOnce = true := by decide +kernel

theorem serverStatesrll_once : serverStatesrll.all okOnce = true := Tree.all_node serverStatesrlll_once (by decide +kernel) serverStatesrllr_once

theorem serverStatesrlrl_once : serverStatesrlrl.all okOnce = true := by decide +kernel

theorem serverStatesrlrr_once : serverStatesrlrr.all okOnce = true := by decide +kernel

theorem serverStatesrlr_once : serverStatesrlr.all okOnce = true := Tree.all_node serverStatesrlrl_once (by decide +kernel) serverStatesrlrr_once

theorem serverStatesrl_once : serverStatesrl.all okOnce = true := Tree.all_node serverStatesrll_once (by decide +kernel) serverStatesrlr_once

theorem serverStatesrrll_once : serverStatesrrll.all okOnce = true := by decide +kernel

theorem serverStatesrrlr_once : serverStatesrrlr.all okOnce = true := by decide +kernel

theorem serverStatesrrl_once : serverStatesrrl.all okOnce = true := Tree.all_node serverStatesrrll_once (by decide +kernel) serverStatesrrlr_once

theorem serverStatesrrrl_once : serverStatesrrrl.all okOnce = true := by decide +kernel

theorem serverStatesrrrr_once : serverStatesrrrr.all okOnce = true := by decide +kernel

theorem serverStatesrrr_once : serverStatesrrr.all okOnce = true := Tree.all_node serverStatesrrrl_once (by decide +kernel) serverStatesrrrr_once

theorem serverStatesrr_once : serverStatesrr.all okOnce = true := Tree.all_node serverStatesrrl_once (by decide +kernel) serverStatesrrr_once

theorem serverStatesr_once : serverStatesr.all okOnce = true := Tree.all_node serverStatesrl_once (by decide +kernel) serverStatesrr_once

theorem server_once : serverStates.all okOnce = true := Tree.all_node serverStatesl_once (by decide +kernel) serverStatesr_once

end Verif.Session
