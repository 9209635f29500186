import json
L=[]
def m(prop,file,d,old,new,claim,**k):
    L.append(dict(id='m2-%02d'%(len(L)+1),prop=prop,file='Verif/'+file,**{'def':d},old=old,new=new,claim=claim,**k))
O='Data/Obs.lean'; C='Data/Construct.lean'; GR='Data/Group.lean'; P='Data/Ogip.lean'
m('C21',O,'Spectrum.init','else if i.exposure ≤ 0 then','else if i.exposure < 0 then','zero exposure accepted')
m('C21',O,'Spectrum.init','[0, 1, 2, 5, -1]','[0, 1, 2, 3, 5, -1]','quality code 3 accepted')
m('C21',O,'Spectrum.init','if i.poisson && i.counts.any','if i.counts.any','negative Gaussian counts refused')
m('C21',O,'Spectrum.init','else if sys.any (fun e => decide (e < 0)) then .error .valueError\n','','negative systematic errors accepted')
m('C21',O,'Spectrum.init','(if g0 = -1 then 1 else g0) :: gs\n          let errors','g0 :: gs\n          let errors','first channel may lack a group start')
m('C21',O,'resetZero','if s = 0 ∧ q ≠ 1 then 1 else s','if s = 0 ∧ q = 1 then 1 else s','zero scale of a good channel kept')
m('C21',O,'Spectrum.init','Real.sqrt (e ^ 2 + (sc.1 * sc.2) ^ 2)) i.errors','(e + sc.1 * sc.2)) i.errors','systematics added linearly')
m('C21',O,'Spectrum.init','let errors := if i.poisson then i.errors else','let errors :=','systematics added to Poisson data')
m('C12',O,'Spectrum.group','(reduceat (mulArr (mulArr factor s.errors) s.errors) idx).map Real.sqrt','reduceat (mulArr factor s.errors) idx','errors summed linearly')
m(['C12','C13'],O,'Spectrum.group','.ok (reduceat (mulArr factor s.counts) idx','.ok (reduceat s.counts idx','bad channels counted')
m('C21',O,'Response.init','decide (p.2 ≤ p.1) then .error .valueError\n  else .ok','decide (p.2 < p.1) then .error .valueError\n  else .ok','repeated photon energies accepted')
m('C21',O,'Response.init','egrid.length ≠ matrix.length + 1','egrid.length ≠ matrix.length','edge count not checked properly')
m(['C14','C18'],O,'Response.groupEnergy','(fun e => minOf ((r.emin.take e.2).drop e.1))','(fun e => maxOf ((r.emin.take e.2).drop e.1))','group emin is the largest channel emin')
m('C14',O,'Response.groupEnergy','(fun e => maxOf ((r.emax.take e.2).drop e.1))','(fun e => maxOf ((r.emax.take (e.2-1)).drop e.1))','group emax misses last channel')
m('C18',O,'Response.groupMatrix','sliceSum (mulArr (qualityFactor (some quality) n) row) e.1 e.2\n','sliceSum row e.1 e.2\n','bad channels folded into groups')
m('C18',O,'Response.groupMatrix','(some quality) n) row) e.1 e.2','(some quality) n) row) e.1 (e.2 - 1)','last channel of group not folded')
m('C18',O,'Response.groupMatrix','  else r.matrix','  else r.matrix.map fun row => row.map fun _ => 0','ungrouped matrix lost')
m(['C13','C21'],O,'goodOf','if ignoreBad then [1, 2, 5] else [1]','if ignoreBad then [1, 2] else [1]','quality 5 channels used although ignore_bad')
m(['C13','C21'],O,'goodBoth','| some b => List.zipWith (· && ·)','| some b => List.zipWith (· || ·)','channel bad in one spectrum only is used')
m('C21',O,'Obs.make','if !(good.any id) then .error .runtimeError','if !(good.all id) then .error .runtimeError','spectra with a bad channel refused')
m('C21',O,'Obs.make','if spec.counts.length ≠ resp.channelNumber then .error .valueError\n  else if','if','spectrum/response size mismatch accepted')
m('C14',O,'channelMask','decide (r.1 ≤ lo) && decide (hi ≤ r.2)','decide (r.1 < lo) && decide (hi ≤ r.2)','group touching the lower edge dropped')
m('C14',O,'channelMask','decide (r.1 ≤ lo) && decide (hi ≤ r.2)','decide (r.1 ≤ hi) && decide (lo ≤ r.2)','overlapping groups kept')
m('C14',O,'channelMask','decide (r.1 ≤ lo) && decide (hi ≤ r.2)','decide (r.1 ≤ lo) || decide (hi ≤ r.2)','and/or')
m(['C13','C14'],O,'Obs.setGrouping','let mask := List.zipWith (fun m g => m && decide (0 < g)) (anyRow','let mask := List.zipWith (fun m g => m && decide (0 ≤ g)) (anyRow','groups without good channel kept')
m('C14',O,'anyRow','rows.any fun row','rows.all fun row','channel must be in every range')
m('C16',O,'Obs.setGrouping','let net := List.zipWith (· - ·) sc (List.zipWith (· * ·) ratio bc)','let net := List.zipWith (· - ·) sc bc','background not scaled')
m('C16',O,'Obs.setGrouping','((List.zipWith (· * ·) ratio be).map (· ^ 2))).map Real.sqrt','(be.map (· ^ 2))).map Real.sqrt','background error not scaled')
m('C16',O,'Obs.setGrouping','let unit := List.zipWith (fun lo hi => 1 / ((hi - lo) * o.spec.exposure)) emin emax','let unit := List.zipWith (fun lo hi => 1 / (hi - lo)) emin emax','exposure forgotten in count density')
m('C14',O,'Obs.setGrouping','let ratio := applyMask mask (groupBackRatio','let ratio := id (groupBackRatio','ratio not masked')
m(['C14','C18'],O,'Obs.setGrouping','matrix := matrix.map (applyMask mask), specCounts := sc, specErrors := se,\n               areaScale := applyMask mask sa.scale, back := some','matrix := matrix, specCounts := sc, specErrors := se,\n               areaScale := applyMask mask sa.scale, back := some','matrix not masked (background present)')
m('C16',O,'Obs.setGrouping','netCounts := sc, netErrors := se,','netCounts := sc, netErrors := sc,','net error of spectrum without background')
m(['C14','C16'],O,'Obs.setGrouping','areaScale := applyMask mask sa.scale, back := none','areaScale := applyMask mask sb.scale, back := none','area scale replaced by background scale')
m(['C16','C14'],O,'Obs.scaleArrays','let ba ← groupScaleData b.counts b.areaScale flags','let ba ← groupScaleData o.spec.counts b.areaScale flags','background scale weighted by source counts')
m(['C13','C16','C14'],O,'Obs.scaleArrays','let net := o.spec.net && o.back.isNone','let net := o.spec.net','net averaging with background present')
m('C15',C,'checkErange','if r.any fun p => decide (p.2 - p.1 ≤ 0)','if r.any fun p => decide (p.2 - p.1 < 0)','empty range accepted (first check)')
m('C15',C,'checkErange','flat.tail).any fun p => decide (p.2 - p.1 ≤ 0)','flat.tail).any fun p => decide (p.2 - p.1 < 0)','touching ranges accepted')
m('C15',C,'checkErange','else .ok s','else .ok r','ranges not sorted')
m('C15',C,'ObsObj.setErange','ObsObj.setGrouping o { x with erange := s } (some x.st.grouping)','ObsObj.setGrouping o { x with erange := s } none','set_erange restores the original grouping')
m('C15',C,'ObsObj.setErange','| .ok s => ObsObj.setGrouping o { x with erange := s } (some x.st.grouping)','| .ok s => ({ x with erange := s }, none)','data not refiltered')
m('C17',GR,'Obs.runMethod','| .min => groupMin d.specCounts','| .min => groupMin d.netCounts','min groups net counts')
m('C17',GR,'Obs.runMethod','| .bmin => groupMin d.backCounts','| .bmin => groupMin d.specCounts','bmin groups source counts')
m('C17',GR,'Obs.runMethod','| true, some true => groupSigLima d.specCounts d.backCounts d.ratio scale','| true, some true => groupSigNormal d.netCounts d.netErrors scale','sig uses the wrong significance')
m('C17',GR,'Obs.runMethod','| .bsig => groupSigNormal d.backCounts','| .bsig => groupSigNormal d.netCounts','bsig on net counts')
m('C17',GR,'Obs.runMethod','| .optbmin => .ok (groupOpt bint (some d.backCounts)','| .optbmin => .ok (groupOpt bint (some d.specCounts)','optbmin on source counts')
m('C17',GR,'Obs.methodOk','(m == .opt || scale.isSome)','true','missing scale accepted')
m('C17',GR,'Obs.methodOk','!(m.isOpt && preserve)','true','opt with preserve accepted')
m('C17',GR,'Obs.methodOk','o.back.any (·.poisson)','o.back.isSome','bmin with Gaussian background accepted')
m('C17',GR,'spread','| false :: m, v => 1 :: spread m v','| false :: m, v => -1 :: spread m v','channels outside the ranges merged')
m('C17',GR,'assemble','let idx := 0 :: cumsum nper.dropLast','let idx := cumsum nper','indices shifted')
m('C17',GR,'Obs.group','let success := results.all Prod.snd','let success := results.any Prod.snd','success if any segment succeeds')
m('C17',GR,'Obs.group','let st ← o.setGrouping erange (some final)','let st ← o.setGrouping erange none','flags computed but not applied')
m('C17',GR,'Segment.slice','specCounts := applyMask mask d.specCounts','specCounts := d.specCounts','segment not masked')
m('C17',GR,'Segment.slice','fwhm := applyMask mask d.fwhm','fwhm := d.fwhm','fwhm not masked')
m('C17',GR,'Obs.countsOpt','o.spec.counts.getD i 0 - guardedDiv 1','o.spec.counts.getD i 0 + guardedDiv 1','background added')
m('C17',GR,'Obs.preFlags','if preserve then o.spec.grouping else','if !preserve then o.spec.grouping else','preserve inverted')
m('C58',P,'columnOr','| some (.inr xs) => xs','| some (.inr _) => dflt','columns ignored')
m('C58',P,'Pha.poissonFlag','| some b, _ => .ok b\n  | none, some b','| some b, none => .ok b\n  | _, some b','argument overrides the header')
m('C58',P,'Pha.countsArr','| none, some r => r.map (· * p.exposure)','| none, some r => r','rates not multiplied by exposure')
m('C58',P,'Pha.statArr','if p.rate.isSome || p.rates.isSome then','if p.rate.isSome then','RATES errors not scaled')
m('C58',P,'Pha.statArr','if poisson then p.countsArr.map Real.sqrt','if poisson then p.countsArr','Poisson errors not square root')
m('C58',P,'Pha.input','if p.hduclas2 = "NET" then some true','if p.hduclas2 = "NET" then some false','NET spectra treated as total')
m('C58',P,'Pha.input','areaScale := p.areaScal.getD (.inl 1)','areaScale := p.backScal.getD (.inl 1)','AREASCAL read from BACKSCAL')
m('C58',P,'Pha.refused','p.statErr.isNone ||','','missing STAT_ERR accepted')
m('C59',P,'NameKeys.name','[k.detnam, k.instrume, k.telescop]','[k.telescop, k.instrume, k.detnam]','priority inverted')
m('C59',P,'placeholderName','["", "none", "unknown"]','["", "none"]','unknown used as name')
m('C59',P,'dataName','if arg.getD "" ≠ "" then .ok (arg.getD "")\n  else if k.name ≠ "" then .ok k.name','if k.name ≠ "" then .ok k.name\n  else if arg.getD "" ≠ "" then .ok (arg.getD "")','header overrides argument')
m('C20',P,'rmfRow','(r.fChan.map (· - first))','r.fChan','first channel offset forgotten')
m('C20',P,'rmfRow','r.matrix.take nElem.toNat','r.matrix','surplus matrix elements kept')
m('C20',P,'rmfRow','(r.matrix.length : Int) < nElem','(r.matrix.length : Int) ≤ nElem','exact rows refused')
m('C20',P,'rmfRows','rmfRows first (i + 1) rs','rmfRows first i rs','row index not advanced')
m('C20',P,'readMatrix','tlmin.getD 1','tlmin.getD 0','default first channel 0')
m('C20',P,'applyArf','row.map (· * a)','row.map (· + a)','ARF added')
m('C20',P,'applyArf','if arf.length ≠ matrix.length then .error .valueError\n    else','','ARF size unchecked')
m('C60',P,'photonGrid','(if e0 ≤ 0 then max 1e-30 (0.001 * e1) else e0)','(if e0 < 0 then max 1e-30 (0.001 * e1) else e0)','zero first edge kept')
m('C60',P,'photonGrid','max 1e-30 (0.001 * e1)','max 1e-30 (1.001 * e1)','first edge above second')
m('C60',P,'photonGrid','elo ++ [last]','[last] ++ elo','edges misordered')
m('C19',P,'Pha.input','sysErrors := .inr p.sysArr','sysErrors := .inl 0','(fix of the double systematics: the refutation must disappear)')
json.dump(L,open('/tmp/mut/m2.json','w'),indent=1); print(len(L))
