import json
L=[]
def m(prop,file,d,old,new,claim,**k):
    L.append(dict(id='m7-%02d'%(len(L)+1),prop=prop,file='Verif/'+file,**{'def':d},old=old,new=new,claim=claim,**k))
m('C53','Plot/Residual.lean','pearsonPair','x * x + y * y','x * x - y * y','combined Pearson residual subtracts the background part')
F='Models/Slot.lean'
m('C87',F,'Item.truth','| .none => false','| .none => true','None as log flag counts as true')
m('C87',F,'create','let d ← d.float\n  let lo ← lo.float','let lo ← lo.float\n  let d ← d.float','order of conversions')
m('C87',F,'create','UParam.create rnd d lo hi log fixed with','UParam.create rnd d lo hi fixed log with','log and fixed swapped')
m('C87',F,'fromMapping','m.lookup "default", m.lookup "min", m.lookup "max" with','m.lookup "default", m.lookup "max", m.lookup "min" with','min and max swapped in a mapping')
m('C87',F,'fromMapping','((m.lookup "fixed").elim false Item.truth)','((m.lookup "fixed").elim true Item.truth)','mapping fixed by default')
m('C87',F,'fromSeq','| [d] => create rnd d (.num cfg.min) (.num cfg.max) cfg.log cfg.fixed','| [d] => create rnd d (.num cfg.min) (.num cfg.max) cfg.log true','one-element sequence fixes')
m('C87',F,'fromSeq','| [d, lo, hi] => create rnd d lo hi cfg.log cfg.fixed','| [d, lo, hi] => create rnd d lo hi false cfg.fixed','log of the slot ignored')
m('C87',F,'fromSeq','create rnd d lo hi log.truth cfg.fixed','create rnd d lo hi cfg.log cfg.fixed','fourth entry ignored')
m('C87',F,'fromSeq','| _ => .error .length','| d :: _ => create rnd d (.num cfg.min) (.num cfg.max) cfg.log cfg.fixed\n  | _ => .error .length','other lengths accepted')
m('C87',F,'convert','(.num cfg.max) cfg.log true','(.num cfg.max) cfg.log cfg.fixed','a number does not fix')
m('C87',F,'convert','| .none => create rnd (.num cfg.default)','| .none => create rnd (.num cfg.min)','default not used')
m('C87',F,'convert','| .array => .error .shape','| .array => .error .type','array error kind')
m('C87',F,'relabel','{ x with latex := latex }','x','LaTeX not overwritten')
m('C87',F,'setSlot','if w.heap.slot c cfg.name = some p then (w, none) else','if false then (w, none) else','no shortcut for same parameter')
m('C87',F,'setSlot','(some ⟨some u, cfg.latex⟩)','(some ⟨some u, cfg.name⟩)','LaTeX of new parameter')
m('C87',F,'setSlot','| .error e => (w, some e)','| .error e => (⟨w.heap, Function.update w.obj fresh none⟩, some e)','failing assignment changes objects')
m('C87',F,'getItem','if n ∈ cfgs.map (·.name) then w.heap.slot c n else none','w.heap.slot c n','unconfigured names')
F='Models/Construct.lean'
m('C88',F,'Class.signature','k.args.map (·, true) ++','k.args.map (·, false) ++','extra arguments optional')
m('C88',F,'Class.signature','++ [("latex", false)] ++ k.kwargs.map (·, false)','++ k.kwargs.map (·, false) ++ [("latex", false)]','latex last')
m('C88',F,'argAt','pos.getD i .none','pos.getD (i+1) .none','positional off by one')
m('C88',F,'argAt','(kw.lookup n).getD .none','Given.none','keywords ignored')
m('C88',F,'bindArgs','if sig.length < pos.length then','if sig.length ≤ pos.length then','too many off by one')
m('C88',F,'bindArgs','else if kw.any fun x => ((sig.take pos.length).map (·.1)).contains x.1 then .error .multiple\n','','duplicate arguments accepted')
m('C88',F,'bindArgs','else if kw.any fun x => !((sig.map (·.1)).contains x.1) then .error .unexpected\n','','unknown keywords accepted')
m('C88',F,'bindArgs','(sig.drop pos.length).any','sig.any','missing check on positional too')
m('C88',F,'fill','| (w\', some e) => (w\', some e)\n    | (w\', none) => fill','| (w\', some _) => fill rnd w\' c rest\n    | (w\', none) => fill','exceptions swallowed')
m('C88',F,'slots','(bound.lookup x.1.name).getD .none','(bound.getD x.2 ("", .none)).2','slots filled by position')
m('C88',F,'newComponent','Function.update w.heap.slot c (fun _ => none)','w.heap.slot','slots not empty')
m('C88',F,'creates','findInit mro.tail == some .base','findInit mro.tail != none','subclassing works')
F='Util/Report.lean'
m('C89',F,'fixedPoint','rnd (v * 10 ^ p) / 10 ^ p','rnd (v * 10 ^ p) / 10 ^ (p+1)','wrong scale')
m('C89',F,'sciSignificand','if carries rnd p v then digits rnd p v / 10 ^ (p + 1) else','if false then 0 else','carry ignored')
m('C89',F,'sciExponent','then decade v + 1 else','then decade v else','carry ignored in exponent')
m('C89',F,'significand','else fixedPoint rnd prec (num * 10 ^ (-exp))','else fixedPoint rnd prec (num * 10 ^ exp)','sign of exponent')
m('C89',F,'significand','if |num| < 10 ^ (exp - prec) then','if |num| < 0 then','small errors vanish')
m('C89',F,'scientific','|v| ≤ 10 ^ (-(minExp : ℤ))','|v| < 10 ^ (-(minExp : ℤ))','boundary of scientific notation')
m('C89',F,'shownError','if d ≠ 0 then significand rnd prec d exp else 0','if d ≠ 0 then significand rnd prec d exp else 1','zero error')
m('C89',F,'report','shownError rnd prec (vmin - vmid) (decade vmid)','shownError rnd prec (vmid - vmin) (decade vmid)','sign of lower error')
m('C89',F,'report','else some ⟨fixedPoint rnd prec vmid, shownError rnd prec (vmin - vmid) 0, shownError rnd prec (vmax - vmid) 0, 0⟩','else some ⟨fixedPoint rnd prec vmid, shownError rnd prec (vmax - vmid) 0, shownError rnd prec (vmin - vmid) 0, 0⟩','errors swapped')
m('C89',F,'report','(decade vmid), decade vmid⟩','(decade vmid), decade vmid + 1⟩','exponent shown')
F='Models/Batch.lean'
m('C90',F,'Arr.column','⟨a.shape.dropLast, fun idx => a.get (idx ++ [j])⟩','⟨a.shape.dropLast, fun idx => a.get (j :: idx)⟩','first axis used')
m('C90',F,'Compiled.fromArray','some c.paramsName.length then .error .valueError\n  else if','some (c.paramsName.length + 1) then .error .valueError\n  else if','size check')
m('C90',F,'Compiled.fromArray','c.paramsId.zip ((List','c.paramsId.reverse.zip ((List','order of columns')
m('C90',F,'vmap','(f (d.slice (idx.headD 0))).get idx.tail','(f (d.slice 0)).get idx.tail','only first element evaluated')
m('C90',F,'Compiled.applyBatch','if ss.any (fun t => t != s) then .error .valueError else','','shapes not checked')
m('C90',F,'Compiled.applyBatch','if c.paramsName = [] then .ok (f d)\n  else','','no parameters')
m('C90',F,'Compiled.knownNames','c.paramsName ++ ((c.fixedId','([] : List String) ++ ((c.fixedId','only fixed names known')
m('C90',F,'Compiled.fromDefault','(c.default p).map fun v => (p, ⟨[], fun _ => v⟩)','(c.default p).map fun v => (p, ⟨[1], fun _ => v⟩)','defaults are arrays')
m('C90',F,'foldNE','fun v d => v * d) ne (diff egrid)','fun v _ => v) ne (diff egrid)','bin width dropped in folding')
m('C90',F,'foldNE','List.zipWith (fun x w => x / w)','List.zipWith (fun x _ => x)','channel width dropped')
m('C90',F,'vecMat','row.getD j 0','row.getD (j+1) 0','column off by one')
m('C90',F,'Folding.ce','if !m.add then .error .typeError\n  else if','if','non additive folded')
m('C90',F,'Folding.ce','| none => .error .runtimeError','| none => .ok (.comps [])','components missing')
F='Models/Xspec.lean'
m('C91',F,'slotName','if n ∈ keywords then n ++ "_" else n','n','keywords kept')
m('C91',F,'slotName',"if c = '.' then '_' else c","c",'dots kept')
m('C91',F,'genConfig','p.min.getD (-1)','p.min.getD 0','default minimum')
m('C91',F,'genConfig','p.max.getD 1e10, p.fixed','p.max.getD 1e10, !p.fixed','fixed inverted')
m('C91',F,'normConfig','⟨"norm", "", 1, 1e-10, 1e10, false⟩','⟨"norm", "", 1, 1e-10, 1e10, true⟩','norm fixed')
m('C91',F,'classConfig','some (ps.map genConfig ++ [normConfig])','some (normConfig :: ps.map genConfig)','norm first')
m('C91',F,'classConfig','| .mul => some (ps.map genConfig)','| .mul => some (ps.map genConfig ++ [normConfig])','multiplicative has norm')
m('C91',F,'supports','then !add else add','then add else !add','supported kind inverted')
m('C91',F,'addIntegral','.filter fun n => n ≠ "norm"','.filter fun n => n ≠ ""','norm passed to XSPEC')
m('C91',F,'addEval','slot "norm" * v','v','norm dropped')
m('C91',F,'mulEval','f ((cfg.map Config.name).map slot)','f ((cfg.map Config.name).reverse.map slot)','order of values')
m('C91',F,'Grad.set','v.getD "central"','v.getD "forward"','default derivative')
m('C91',F,'Grad.set','then .ok { g with method := m } else','then .ok { g with method := m, cached := none } else','cache invalidated')
m('C91',F,'extendLow','.dropLast ++ e :: es','.dropLast ++ es','first edge lost')
m('C91',F,'extendLow','if e < x.low then','if e ≤ x.low then','boundary of low extension')
m('C91',F,'extendHigh','(grid x.highLog last x.high (x.nhigh + 1)).tail','(grid x.highLog last x.high (x.nhigh + 1))','edge doubled')
m('C91',F,'extendHigh','if last > x.high then','if last ≥ x.high then','boundary of high extension')
m('C91',F,'convolved','x.nlow x.nhigh)','x.nhigh x.nlow)','slice ends swapped')
m('C91',F,'defaults','⟨0.01, 100, true, 100, 100, true⟩','⟨0.01, 100, true, 1000, 100, true⟩','default upper end')
m('C91',F,'sliceNeg','if k = 0 then 0 else','if k = 0 then xs.length else','slice with zero stop')
F='Plot/Draw.lean'
m('C92',F,'gapMask','decide (a ≠ b)','decide (a > b)','gap only when edges increase')
m('C92',F,'cuts','.map (· + 1) ++ [n]','.map (· + 1)','last stretch missing')
m('C92',F,'cuts','0 :: (flatnonzero (gapMask xl xr)).map (· + 1)','0 :: (flatnonzero (gapMask xl xr))','stretch cut one early')
m('C92',F,'segment','⟨pySlice xl ab.1 ab.2 ++ [r]','⟨pySlice xr ab.1 ab.2 ++ [r]','right edges drawn')
m('C92',F,'plotStep','if y.length = xl.length ∧ xl.length = xr.length then','if y.length ≤ xl.length ∧ xl.length = xr.length then','length check')
m('C92',F,'plotRibbon','∧ ∀ z ∈ y :: ys, z.length = y.length then','then','ribbon lengths not checked')
m('C92',F,'plotEgrid','emin0 ≤ e ∧ e ≤ emaxLast','emin0 < e ∧ e ≤ emaxLast','first edge dropped')
m('C92',F,'plotUnfolded','egrid.dropLast egrid.tail','egrid.tail egrid.dropLast','edges swapped')
m('C92',F,'logFloor','> octave then vmax / 10 ^ octave else vmin','> octave then vmin else vmin','range not cut')
m('C92',F,'logRange','Real.logb 10 vmax + 0.1','Real.logb 10 vmax - 0.1','upper end below data')
m('C92',F,'logRange','octave) - 0.05','octave) + 0.05','lower end above data')
F='Plot/Bands.lean'
m('C93',F,'band','let hi ← quantile xs (0.5 + cl * 0.5)','let hi ← quantile xs cl','one-sided upper end')
m('C93',F,'absBand','|x|','x','absolute value dropped')
m('C93',F,'absBand','return (-q, q)','return (0, q)','band not symmetric')
m('C93',F,'ceModelCi','if 0 < cl ∧ cl < 1 then some <$> cols.mapM (fun xs => band xs cl) else .error .assertionError','some <$> cols.mapM (fun xs => band xs cl)','level not checked')
m('C93',F,'residualsCi','if withSign then band xs cl else absBand xs cl','if withSign then absBand xs cl else band xs cl','sign option inverted')
m('C93',F,'setCl','(· ≤ ·)).all (fun c => decide (0 < c ∧ c < 1))','(· ≤ ·)).all (fun c => decide (0 < c ∧ c ≤ 1))','level one accepted')
m('C93',F,'setCl','then .ok (cl.insertionSort (· ≤ ·)) else','then .ok cl else','levels not sorted')
m('C93',F,'outside','r < q.1 ∨ q.2 < r','r < q.1 ∧ q.2 < r','nothing is outside')
m('C93',F,'outlierMarks','match bands.getLast? with','match bands.head? with','marks from narrowest band')
m('C93',F,'residualPanel','isf (0.5 * (1 - c))','isf (1 - c)','one-sided normal quantile')
m('C93',F,'residualPanel','let useMle := decide (bands ≠ [])','let useMle := true','best fit residuals always')
m('C93',F,'override','b ++ a','a ++ b','given parameters do not win')
m('C93',F,'mleUnfolded','model (override p params)) c\n      return (model (override mle params), some b)','model p) c\n      return (model (override mle params), some b)','given parameters ignored in the band')
m('C93',F,'postUnfolded','let m ← quantile (post.map fun p => model (override p params)) 0.5\n      let b','let m ← quantile (post.map fun p => model p) 0.5\n      let b','given parameters ignored in median')
F='Plot/Diag.lean'
m('C94',F,'plotPos','(((i : ℝ) + 1) - Real.pi / 8)','((i : ℝ) - Real.pi / 8)','rank off by one')
m('C94',F,'plotPos','((n : ℝ) - 2 * (Real.pi / 8) + 1)','((n : ℝ) - (Real.pi / 8) + 1)','asymmetric plotting positions')
m('C94',F,'orderStat','(sorted row).getD k 0','row.getD k 0','simulations not sorted')
m('C94',F,'simQuantiles','(0.5 - 0.5 * cl)','(0.5 - cl)','band level')
m('C94',F,'qqPlain','⟨theor, sorted q, theor,','⟨theor, q, theor,','data not sorted')
m('C94',F,'qqPlain','ppf (beta (0.5 + cl * 0.5) (i + 1) (n + 1 - (i + 1)))','ppf (beta (0.5 + cl * 0.5) (i + 1) (n - (i + 1)))','beta parameter')
m('C94',F,'QQ.detrend','minus r.upper r.theor','r.upper','upper end not detrended')
m('C94',F,'getQQ','if detrend then r.detrend else r','if detrend then r else r.detrend','detrend inverted')
m('C94',F,'ecdf','decide (p ≤ x)','decide (p < x)','strict ecdf')
m('C94',F,'scaledRank','List.range (n + 1)','List.range n','last rank missing')
m('C94',F,'binomInterval','binomPpf n p ((1 + cl) / 2))','binomPpf n p cl)','one-sided')
m('C94',F,'pitPoint','⟨x, ecdf pit x - x, 0, lo - x, up - x⟩','⟨x, ecdf pit x - x, 0, lo, up⟩','band not detrended')
m('C94',F,'gofCurve','1 - ((i : ℝ) + 1) / sim.length','1 - (i : ℝ) / sim.length','survival off by one')
m('C94',F,'gofText','if 0 < p then','if 0 ≤ p then','p zero shown')
m('C94',F,'withTotal','else r ++ [("total", r.flatMap (·.2))]','else r','no total')
F='Plot/Request.lean'
m('C95',F,'splitGo','(if sep then splitGo ws cur true cs else cur :: splitGo ws [] true cs)','(cur :: splitGo ws [] true cs)','runs of white space')
m('C95',F,'residualWord',').getLast?',').head?','first residual word')
m('C95',F,'residualType','if w = "r" then default else w','w','r not resolved')
m('C95',F,'eneLabel','if "FvJy" ∈ plots then "FvJy" else if "Fv" ∈ plots then "Fv" else "ene"','if "Fv" ∈ plots then "Fv" else if "FvJy" ∈ plots then "FvJy" else "ene"','label order')
m('C95',F,'eeneLabel','"vFv" else "eene"','"vFv" else "vFv"','label')
m('C95',F,'specPanels','(fun p => p ∈ ["eene", "vFv"])','(fun p => p ∈ ["eene"])','vFv has no panel')
m('C95',F,'specPanels','(if "ne" ∈ plots then [("ne", "ne")] else [])','[]','ne has no panel')
m('C95',F,'needs','else if name = "gof" then .error .runtimeError\n','','gof without simulations')
m('C95',F,'otherFigs','["corner", "gof", "qq", "pit", "trace", "khat"]','["corner", "gof", "qq", "pit", "trace"]','khat never made')
m('C95',F,'figures','if plots.any (fun p => p ∈ specWords) then','if "data" ∈ plots then','spec only for data')
m('C95',F,'callPlots','if plots.any (fun p => p ∉','if plots.all (fun p => p ∉','one unknown word accepted')
m('C95',F,'fvKevToJy','413566.7696923858','662607.015','unit')
json.dump(L,open('/tmp/mut/m7.json','w'),indent=1)
print(len(L))
