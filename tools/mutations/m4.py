import json
L=[]
def m(prop,file,d,old,new,claim,**k):
    L.append(dict(id='m4-%02d'%(len(L)+1),prop=prop,file='Verif/Models/'+file,**{'def':d},old=old,new=new,claim=claim,**k))
P='Param.lean';T='Tracker.lean';B='Label.lean';I='Info.lean';A='Algebra.lean';S='Spectra.lean';V='Interval.lean';U='Mul.lean'
m('C26',P,'rangeError','else if Val.lt d lo then some .below\n','','default below min accepted')
m('C26',P,'rangeError','else if Val.le hi lo then some .minMax','else if Val.lt hi lo then some .minMax','min = max accepted')
m('C26',P,'rangeError','if Val.le lo (.fin 0) && log then','if Val.lt lo (.fin 0) && log then','log with min 0 accepted')
m('C26',P,'nudgeLo','if Val.eq d lo && !fixed then\n    Val.add rnd lo','if Val.eq d lo && !fixed then\n    Val.sub rnd lo','nudged out of range')
m('C26',P,'nudgeHi','if Val.eq d hi && !fixed then','if Val.eq d hi && fixed then','free default at max kept')
m('C26',P,'UParam.checkAndSet','if lo?.isSome || hi?.isSome then','if lo?.isSome then','prior not updated with max')
m('C26',P,'UParam.checkAndSet','if hi?.isSome then { p₂ with max := hi }','if hi?.isSome then { p₂ with min := hi }','max setter writes min')
m('C27',P,'UParam.checkAndSet','| some e => (p, some e)\n  | none =>\n    let d\'','| some e => ({ p with default := d }, some e)\n  | none =>\n    let d\'','rejected update still changes default')
m('C26',P,'UParam.step','({ p with log := b, prior := ⟨b, p.min, p.max⟩ }, none)','({ p with log := b }, none)','prior not switched with log')
m('C26',P,'UParam.create','if !q.contains d then .error .support\n    else','','support not checked (NaN)')
m('C26',P,'DParam.setDefault','if p.support d then ({ p with default := d }, none) else (p, some .support)','({ p with default := d }, none)','out of support default')
m('C27',P,'DParam.setDefault','else (p, some .support)','else ({ p with default := d }, some .support)','rejected default stored')
m('C28',T,'append','if r ∈ h then h else h ++ [r]','h ++ [r]','slot recorded twice')
m('C28',T,'remove','some (h.erase r)','some h','old slot not forgotten')
m('C28',T,'getCompParam','h.find? fun r','h.reverse.find? fun r','newest instead of oldest slot names the parameter')
m('C28',T,'assign','if h.slot c n = some p then some { h with clock := h.clock + 1 }\n  else','','re-assigning the same parameter')
m('C28',T,'assign','Function.update hist p (append (hist p) (c, n))','hist','new slot not recorded')
m('C28',T,'dropPrev','| some l => some (Function.update h.hist q l)','| some _ => some h.hist','previous content keeps slot')
m('C28',T,'assign','(Function.update (h.slot c) n (some p))','(fun _ => some p)','all slots of the component overwritten')
m('C29',B,'PExpr.needsParen','| .sub => true\n    | .mul','| .sub => false\n    | .mul','difference not parenthesised')
m('C29',B,'label','| .sub => ll ++ .op .sub :: wrap r.needsParen lr','| .sub => ll ++ .op .sub :: lr','a - (b + c) printed a - b + c')
m('C29',B,'label','| .div => wrap l.needsParen ll ++ .op .div :: wrap true lr','| .div => wrap l.needsParen ll ++ .op .div :: wrap r.needsParen lr','a / (b * c) printed a / b * c')
m('C29',B,'label','| .pow => wrap l.isComposite ll ++ .op .pow :: wrap r.isComposite lr','| .pow => wrap l.needsParen ll ++ .op .pow :: wrap r.isComposite lr','(a*b)^c printed a*b^c')
m('C29',B,'value','applyOp pw op (value pw fn v l) (value pw fn v r)','applyOp pw op (value pw fn v r) (value pw fn v l)','operands swapped')
m('C29',B,'Tok.text','| .op .sub => " - "','| .op .sub => " + "','wrong symbol')
m('C61',I,'PExpr.nodes','| .bin i o l r => .bin i o l r :: (l.nodes ++ r.nodes)','| .bin i o l r => .bin i o l r :: l.nodes','right operand not collected')
m('C61',I,'dedupId','x :: (dedupId xs).filter fun y => y.id != x.id','x :: dedupId xs','shared parameter listed twice')
m('C61',I,'auxParams','(compParam conf comps e.id).isNone && !e.isComposite','(compParam conf comps e.id).isNone','composites listed as auxiliary')
m('C61',I,'slotStep','if (s.cid, s.pname) ≠ owner then .ok (put .blank .forwarded acc)\n    else if','if','forwarded slot counted again')
m('C61',I,'slotStep','acc with n := acc.n + 1, order := acc.order ++ [s.e.id]','acc with n := acc.n, order := acc.order ++ [s.e.id]','numbers repeat')
m('C61',I,'slotStep','else if allFixed conf s.e then .ok (put .blank .fixed acc)\n','','fixed composite shown as composite')
m('C61',I,'auxStep','if conf.kind p = .free then','if conf.kind p ≠ .interval then','fixed auxiliary counted as free')
m('C61',I,'nameMapping','c ++ "." ++ pname','c ++ "." ++ c','slot name lost')
m('C61',I,'allFixed','conf.kind p != .free','conf.kind p == .fixed','interval operands not fixed (dominated by hasInterval)')
m('C30',I,'capture','| .leaf i => .leaf i (default i)','| .leaf i => .leaf i (default (i + 1))','wrong default captured')
m('C30',I,'Clo.run','| .leaf i d => (m i).getD d','| .leaf _ d => d','given value ignored')
m('C30',I,'Clo.run','applyOp pw op (l.run pw fn m) (r.run pw fn m)','applyOp pw op (r.run pw fn m) (l.run pw fn m)','operands swapped')
m(['C30','C33'],I,'dictOr','(b p).orElse fun _ => a p','(a p).orElse fun _ => b p','fixed values override given ones')
m('C33',I,'prepareSeq','else if c.paramsId.length ≠ xs.length then .error .valueError\n  else','else','(fix: shared parameters no longer refused)')
m('C33',I,'prepareSeq','if xs.length ≠ c.paramsName.length then .error .valueError\n  else if c','if c','length not compared with names')
m('C33',I,'dictZip','(ids.zip xs).reverse.find?','(ids.zip xs.reverse).reverse.find?','values assigned in reverse')
m('C33',I,'prepareMap','if c.paramsName ≠ [] ∧ (∀ q ∈ m, c.lookup q.1 = none) then .error .valueError\n  else','','unknown names silently accepted')
m('C33',I,'compile','slots := (slots comps).map fun s => ((s.cid, s.pname), capture conf.default s.e)','slots := (slots comps).tail.map fun s => ((s.cid, s.pname), capture conf.default s.e)','first slot lost')
m('C33',I,'Compiled.slotValues','s.2.run pw fn (dictOr c.fixed params)','s.2.run pw fn params','fixed values dropped (captured defaults coincide)')
m('C31',A,'mkBin','if l.type ≠ .add then .error .typeError\n    else if','if','mul + add accepted')
m('C31',A,'mkBin','if l.type = .add ∧ r.type = .add then .error .typeError\n    else if','if','add * add accepted')
m('C31',A,'mkBin','l.type = .conv ∨ r.type = .conv','l.type = .conv','conv on right accepted')
m('C31',A,'Mod.type','if l.type = .add ∨ r.type = .add then .add else .mul','if l.type = .add then .add else .mul','mul*add typed mul')
m('C31',A,'mkConv','if supported m.type then .ok (.convolved id m) else .error .typeError','.ok (.convolved id m)','unsupported convolution accepted')
m('C31',A,'Mod.eval','| .times => .ok (a * b)','| .times => .ok (a + b)','product evaluated as sum')
m('C31',A,'appendNew','(if c ∈ comps then comps else comps ++ [c])','(comps ++ [c])','shared component listed twice')
m('C31',A,'Mod.comps','if id ∈ m.comps then m.comps else m.comps ++ [id]','m.comps','convolution component lost: KeyError')
m('C32',A,'Mod.additiveComps','cs.map fun c => .bin .times c r else','cs else','multiplicative factor lost in parts')
m('C32',A,'Mod.additiveComps','| .bin .plus l r => l.additiveComps ++ r.additiveComps','| .bin .plus l _ => l.additiveComps','right summand lost')
m('C32',A,'Mod.additiveComps','cs.map fun c => .convolved id c else','cs else','convolution lost in parts')
m('C32',A,'Mod.compsEval','if m.additiveComps.length ≤ 1 then none','if m.additiveComps.length ≤ 0 then none','single component accepted')
m('C32',A,'Mod.latex','"\\\\left(" ++ s ++ "\\\\right)"','s','sums unparenthesised in labels')
m('C36',S,'powerlawIntegral','if alpha ≠ 1 then f1 else f2','f1','alpha=1 not special')
m('C36',S,'powerlawIntegral','e ^ oneMinusAlpha / oneMinusAlpha','e ^ oneMinusAlpha','normalisation lost')
m(['C35','C36'],S,'diff','(fun b a => b - a)','(fun b a => a - b)','sign')
m('C36',S,'powerLaw','fun v => K * v\n\n/-- `BrokenPL','fun v => v\n\n/-- `BrokenPL','norm ignored')
m('C37',S,'brokenPL','decide (e ≤ Eb)','decide (Eb ≤ e)','branches swapped')
m('C37',S,'brokenPL','egrid.dropLast.map fun e => decide','egrid.tail.map fun e => decide','upper edge decides')
m('C38',S,'plPhFlux','let factor := F / f\n','let factor := F * f\n','factor inverted')
m('C38',S,'plEnFlux','(alpha - 1))','(alpha + 1))','energy weighting inverted')
m('C38',S,'plEnFlux','F / (f * keVToErg)','F / f','unit forgotten')
m('C55',S,'lorentz','π + 2 * arctan (2 * El / sigma)','π','tail below zero not accounted for')
m('C55',S,'lorentz','arctan (2 * (e - El) / sigma)','arctan ((e - El) / sigma)','FWHM read as HWHM')
m('C39',S,'band','amb * log (amb * Ec / 100) - amb + beta','amb * log (amb * Ec / 100) + amb + beta','high energy branch discontinuous',all=True)
m('C39',S,'band','if e < Ebreak then alpha * log (e / 100) - e / Ec\n    else amb * log (amb * Ec / 100) - amb + beta * log (e / 100))\n\n/-- `BandEp','if e < Ec then alpha * log (e / 100) - e / Ec\n    else amb * log (amb * Ec / 100) - amb + beta * log (e / 100))\n\n/-- `BandEp','break at Ec')
m('C39',S,'bandEp','Ep / (2 + alpha)','Ep / alpha','Ep conversion')
m('C39',S,'compt','(alpha - 2) / Ep','(alpha - 1) / Ep','Compt peak')
m('C64',S,'smoothlyBrokenPL','if x > 30 then alpha2 else alpha1','alpha1','asymptote lost')
m('C64',S,'smoothlyBrokenPL','if |x| > 30 then 0.5','if |x| > 3 then 0.5','threshold too low')
m('C64',S,'blackbody','if x ≤ 1e-4 then tmp else','if x ≤ 1e-4 then tmp * x else','low energy branch')
m('C64',S,'blackbody','tmp * x / (exp x\' - 1)','tmp / (exp x\' - 1)','factor lost')
m('C42',S,'trapz','if add then 0.5 * (b - a) else 0.5','if add then (b - a) else 0.5','factor')
m('C42',S,'trapz','if add then 0.5 * (b - a) else 0.5','0.5 * (b - a)','mul models get a width')
m('C42',S,'simpson','+ 4 * continuum','+ 2 * continuum','weight')
m('C42',S,'simpson','(0.5 * (a + b))','(0.5 * (b - a))','midpoint')
m('C35',S,'ne','v / d) (model egrid)','v * d) (model egrid)','multiplied by width')
m('C62',S,'ene','keVToErg * sqrt (a * b)) egrid) (ne','keVToErg * (a * b)) egrid) (ne','EENE instead of ENE')
m('C62',S,'flux','if energy then ene','if !energy then ene','flag inverted')
m('C63',S,'lumin','(eminRest / (1 + z))','(eminRest * (1 + z))','rest frame inverted')
m('C63',S,'lumin','(4 * π * dl z ^ 2)','(π * dl z ^ 2)','factor four')
m('C63',S,'eiso','(duration / (1 + z))','duration','time dilation')
m('C40',S,'zaShift','.map fun v => v / (1 + z)','.map fun v => v','photon number not conserved')
m('C40',S,'zmShift','e * (1 + z))\n\n/-- Speed','e / (1 + z))\n\n/-- Speed','shift inverted')
m('C40',S,'vShift','1 - v / cKms','1 + v / cKms','sign of velocity')
m('C41',S,'phFlux','F / mflux * v\n\n/-- `EnFlux','F * mflux * v\n\n/-- `EnFlux','normalisation')
m('C41',S,'enFlux','keVToErg * sqrt (a * b)) g','sqrt (a * b)) g','units')
m('C65',V,'integralFactory','/ (b - a)','','not averaged')
m('C65',V,'integralFactory','(setParam params pid value)','params','parameter not replaced')
m('C65',V,'compileFn','integralFactory quad e.pid e.a e.b fn','integralFactory quad e.pid e.b e.a fn','limits swapped (average unchanged)')
m('C65',V,'checkInterval','| [a, b] => .ok (a, b)','| a :: b :: _ => .ok (a, b)','longer sequences accepted')
m('C66',U,'edge','if e ≥ Ec then exp (-D','if e ≥ Ec then exp (D','sign')
m('C66',U,'expFac','1 + A * exp','1 - A * exp','sign of factor')
m('C66',U,'highECut','if e ≥ Ec then exp ((Ec - e) / Ef) else 1','if e ≤ Ec then exp ((Ec - e) / Ef) else 1','side')
m('C66',U,'plAbs','(diff f) (diff egrid)).map some','(diff f) (diff f)).map some','division by wrong width')
m('C66',U,'crossSection','exp (interp (log e)','(interp (log e)','exponential lost')
m('C66',U,'interpIndex','decide (v ≤ x)','decide (v < x)','index at nodes (same value)')
m('C66',U,'interp','fp.getD (i - 1) 0 + delta','fp.getD i 0 + delta','interpolates from wrong node')
m('C66',U,'gAbs','/ sigma) ^ (2 : ℝ)','/ sigma) ^ (1 : ℝ)','profile')
m('C66',U,'expAbs','exp (-Ec / e)','exp (Ec / e)','sign')
m('C66',U,'photonAbs','exp (-nH *','exp (nH *','sign')
json.dump(L,open('/tmp/mut/m4.json','w'),indent=1); print(len(L))
